import Verif.Lemmas.DistPrepare
import Verif.Lemmas.DistAL
import Verif.Lemmas.RelaxOptimal
/-!
# C144: a node of the distributed method is its own problem plus the couplings
-/
namespace Verif
open Spec Net DistPrepare

/-- C144. The inputs of a node become algebraic variables with one equation each, the outputs get one
path equality each, every coupling has its own block of parameters, and the recorded positions are
those of the new equations, variables and path equalities. -/
theorem C144_coupled (o : Opts) (hs : o.skip = false) (p : Ocp) (next : Sym) (ins outs : List Edge)
    (h : Fits p ins outs) (hg : GuessesFit p) :
    ∃ s, includeAll o ins outs (start p next) = (.ok (), s) ∧
      Coupled o next (inputsOf ins) (outputsOf outs) p s ∧ Sized s.problem ∧ GuessesFit s.problem := by
  obtain ⟨s₁, hr₁, hi⟩ := bindInputs_run o hs ins (start p next)
    { h with sizesOut := by simp } hg
  have hr₂ := bindOutputs_run o hs next (inputsOf ins).length outs s₁ h.sizesOut hi.next
  have hz := hi.sized
  refine ⟨afterOutputs o next (inputsOf ins).length (outputsOf outs) s₁, ?_, ?_, ?_, ?_⟩
  · unfold includeAll
    rw [Py.bind_eq, Py.bind_ok hr₁, hr₂]
  · have hj := hi.joined
    obtain ⟨c₁, c₂, c₃, c₄, c₅, c₆, c₇⟩ := hj.constraints
    exact
      { y := hi.y
        alg := hi.alg
        gEq := by simp only [afterOutputs, c₄]; rfl
        timeGEq := by simp only [afterOutputs, c₆]; rfl
        theta := by
          simp only [afterOutputs]
          rw [hi.theta, hi.next, List.append_assoc, ← allParams_append]; rfl
        rest := ⟨hj.horizon, hj.costs, ⟨c₁, c₂, c₃, rfl, c₅, rfl, c₇⟩, hj.x, hj.u, hj.uMax, hj.uMin,
          hj.duMax, hj.duMin, hj.yMax, hj.yMin⟩
        ode := hi.ode
        parameters := hi.parameters
        algInd := by simp only [afterOutputs, hi.algInd, start, List.nil_append]
        yRelax := by simp only [afterOutputs, hi.yRelax, start, List.nil_append]
        eqInd := by simp only [afterOutputs, hi.eqInd, start, List.nil_append, c₄]
        next := by simp only [afterOutputs, hi.next, start, Nat.add_mul, Nat.add_assoc] }
  · exact ⟨hz.x0, hz.xMax, hz.xMin, hz.yMax, hz.yMin, hz.uMax, hz.uMin, hz.duMax, hz.duMin,
      hz.pOptMax, hz.pOptMin, hz.thetaOptMax, hz.thetaOptMin⟩
  · exact hi.guesses

/-- The relaxations of a coupled node. -/
theorem DistPrepare.relaxable {o : Opts} {next : Sym} {ins outs : List Sym} {p : Ocp} {s : Prep}
    (hc : Coupled o next ins outs p s) (hz : Sized s.problem) (hg : GuessesFit s.problem)
    (hd : (p.model.y ++ ins).Nodup) (hq : p.model.alg.length = p.model.y.length)
    (ha : (p.model.alg ++ inputEquations o next ins).Nodup) (hne : ins ≠ []) :
    Relaxable s.problem s.algInd s.yRelax := by
  have hl : (inputEquations o next ins).length = ins.length := by simp [inputEquations]
  refine { sized := hz, distinctVariables := by rw [hc.y]; exact hd,
           distinctEquations := by rw [hc.alg]; exact ha,
           square := by rw [hc.alg, hc.y]; simp [hl, hq], nonempty := ?_, equations := ?_,
           chosen := ?_, same := by rw [hc.algInd, hc.yRelax]; simp, guessSize := ?_, guesses := ?_ }
  · rw [hc.algInd]
    intro h0
    have := congrArg List.length h0
    simp at this
    exact hne this
  · rw [hc.alg, hc.algInd, ← hl]
    exact positions_suffix _ _
  · rw [hc.y, hc.yRelax]
    exact positions_suffix _ _
  · intro g hgg
    rcases hg with ⟨-, e⟩ | ⟨gu, gy, -, e, -, l⟩
    · rw [e] at hgg; cases hgg
    · rw [e] at hgg; cases hgg; exact l
  · rcases hg with ⟨e, -⟩ | ⟨gu, gy, -, e, -, l⟩
    · simp [e]
    · simp [e]

/-- A coupled node after the relaxation of the algebraic equations. -/
structure DistPrepare.Restored (o : Opts) (next : Sym) (ins : List Sym) (p : Ocp) (s : Prep)
    (r : Relax) : Prop where
  x : r.problem.model.x = p.model.x
  ode : r.problem.model.ode = p.model.ode
  y : r.problem.model.y = p.model.y
  alg : r.problem.model.alg = p.model.alg
  gEq : r.problem.gEq = s.problem.gEq
  timeGEq : r.problem.timeGEq = s.problem.timeGEq
  u : r.problem.model.u = p.model.u.filter (fun v => decide (v ∉ ins)) ++ ins
  uMax : ∀ v, (bounds r.problem.model.u r.problem.uMax).lookup v =
    (bounds p.model.u p.uMax).lookup v
  uMin : ∀ v, (bounds r.problem.model.u r.problem.uMin).lookup v =
    (bounds p.model.u p.uMin).lookup v
  yMin : r.problem.yMin = p.yMin
  yMax : r.problem.yMax = p.yMax
  xMin : r.problem.xMin = p.xMin
  xMax : r.problem.xMax = p.xMax
  relaxedAlg : r.relaxedAlg = inputEquations o next ins
  relaxedEq : r.relaxedEq = []

theorem DistPrepare.relax_inputs {o : Opts} {mu0 : Rat} {next : Sym} {ins outs : List Sym} {p : Ocp}
    {s : Prep} (hp : Sized p) (hc : Coupled o next ins outs p s) (hz : Sized s.problem)
    (hg : GuessesFit s.problem) (hd : (p.model.y ++ ins).Nodup)
    (hq : p.model.alg.length = p.model.y.length)
    (ha : (p.model.alg ++ inputEquations o next ins).Nodup) :
    ∃ r, Relax.ifEquations s.algInd (Relax.relaxAlgebraic mu0 s.algInd s.yRelax)
      (Relax.start s.problem s.next) = (.ok (), r) ∧ Restored o next ins p s r := by
  have hl : (inputEquations o next ins).length = ins.length := by simp [inputEquations]
  obtain ⟨n₁, a₁, a₂, a₃⟩ := hc.rest.yMax
  obtain ⟨n₂, b₁, b₂, b₃⟩ := hc.rest.yMin
  have e₁ := bounds_split a₁ hp.yMax hz.yMax
  have e₂ := bounds_split b₁ hp.yMin hz.yMin
  simp only at e₁ e₂
  have l₁ : n₁.length = ins.length := by rw [← a₂]; simp
  have l₂ : n₂.length = ins.length := by rw [← b₂]; simp
  by_cases hne : ins = []
  · have n₁' : n₁ = [] := List.length_eq_zero_iff.1 (by rw [l₁, hne]; rfl)
    have n₂' : n₂ = [] := List.length_eq_zero_iff.1 (by rw [l₂, hne]; rfl)
    have hw : ∀ {α : Type} (l : List (Sym × α)), boundsWithout ins l = l := fun l => by
      simp [boundsWithout, hne]
    have hu := hc.rest.u
    have hM := hc.rest.uMax
    have hm := hc.rest.uMin
    rw [hw] at hM hm
    refine ⟨Relax.start s.problem s.next, ?_, ?_⟩
    · rw [hc.algInd, hne]; rfl
    · exact
      { x := hc.rest.x.1
        ode := hc.ode
        y := by simp only [Relax.start]; rw [hc.y, hne, List.append_nil]
        alg := by simp only [Relax.start]; rw [hc.alg, hne]; simp [inputEquations]
        gEq := rfl
        timeGEq := rfl
        u := by simp only [Relax.start]; simp only at hu; rw [hu, hne, List.append_nil]
        uMax := fun v => by simp only [Relax.start]; rw [hM]
        uMin := fun v => by simp only [Relax.start]; rw [hm]
        yMin := by simp only [Relax.start]; rw [e₂, n₂']; simp
        yMax := by simp only [Relax.start]; rw [e₁, n₁']; simp
        xMin := hc.rest.x.2.2.1
        xMax := hc.rest.x.2.1
        relaxedAlg := by rw [hne]; rfl
        relaxedEq := rfl }
  · have hR := relaxable hc hz hg hd hq ha hne
    obtain ⟨r, hr, hA⟩ := Relax.relaxAlgebraic_run mu0 s.algInd s.yRelax
      (Relax.start s.problem s.next) hR
    refine ⟨r, ?_, ?_⟩
    · rw [Relax.ifEquations_run hR.nonempty hR.equations.2]; exact hr
    · have hx := hA.relaxed
      have ey : entriesAt s.problem.model.y s.yRelax = ins := by
        rw [hc.y, hc.yRelax]; exact entriesAt_suffix _ _
      have ey' : otherEntries s.problem.model.y s.yRelax = p.model.y := by
        rw [hc.y, hc.yRelax]; exact otherEntries_suffix _ _
      have eM : entriesAt s.problem.yMax s.yRelax = n₁.map Prod.snd := by
        rw [e₁, hc.yRelax, ← hp.yMax, ← l₁, ← List.length_map (f := Prod.snd)]
        exact entriesAt_suffix _ _
      have eM' : otherEntries s.problem.yMax s.yRelax = p.yMax := by
        rw [e₁, hc.yRelax, ← hp.yMax, ← l₁, ← List.length_map (f := Prod.snd)]
        exact otherEntries_suffix _ _
      have em : entriesAt s.problem.yMin s.yRelax = n₂.map Prod.snd := by
        rw [e₂, hc.yRelax, ← hp.yMin, ← l₂, ← List.length_map (f := Prod.snd)]
        exact entriesAt_suffix _ _
      have em' : otherEntries s.problem.yMin s.yRelax = p.yMin := by
        rw [e₂, hc.yRelax, ← hp.yMin, ← l₂, ← List.length_map (f := Prod.snd)]
        exact otherEntries_suffix _ _
      have ea : entriesAt s.problem.model.alg s.algInd = inputEquations o next ins := by
        rw [hc.alg, hc.algInd, ← hl]; exact entriesAt_suffix _ _
      have ea' : otherEntries s.problem.model.alg s.algInd = p.model.alg := by
        rw [hc.alg, hc.algInd, ← hl]; exact otherEntries_suffix _ _
      have hu := hc.rest.u
      simp only at hu
      have hstart : (Relax.start s.problem s.next).problem = s.problem := rfl
      exact
      { x := hx.x.trans hc.rest.x.1
        ode := hx.ode.trans hc.ode
        y := by rw [hx.y, hstart, ey']
        alg := by rw [hx.alg, hstart, ea']
        gEq := hx.gEq
        timeGEq := hx.timeGEq
        u := by rw [hx.u, hstart, ey, hu]
        uMax := fun v => by
          rw [hx.u, hx.uMax, hstart, ey, eM]
          exact lookup_restored hc.rest.uMax a₂ a₃ hz.uMax v
        uMin := fun v => by
          rw [hx.u, hx.uMin, hstart, ey, em]
          exact lookup_restored hc.rest.uMin b₂ b₃ hz.uMin v
        yMin := by rw [hx.yMin, hstart, em']
        yMax := by rw [hx.yMax, hstart, eM']
        xMin := hx.xMin.trans hc.rest.x.2.2.1
        xMax := hx.xMax.trans hc.rest.x.2.1
        relaxedAlg := by rw [hA.relaxedAlg, hstart, ea]; rfl
        relaxedEq := hA.relaxedEq }

theorem DistPrepare.lookup_zip_none {α : Type} (ins : List Sym) (l : List α) (v : Sym) (h : v ∉ ins) :
    (ins.zip l).lookup v = none := by
  rw [List.lookup_eq_none_iff]
  intro p hp
  have : v ≠ p.1 := fun e => h (e ▸ (List.of_mem_zip hp).1)
  simpa using this

theorem DistPrepare.lookup_zip_replicate {α : Type} (ins : List Sym) (t : α) (v : Sym) (h : v ∈ ins) :
    (ins.zip (List.replicate ins.length t)).lookup v = some t := by
  induction ins with
  | nil => simp at h
  | cons a ins ih =>
    rw [List.length_cons, List.replicate_succ, List.zip_cons_cons, List.lookup_cons]
    by_cases e : v = a
    · simp [e]
    · have : (v == a) = false := by simpa using e
      rw [this]
      exact ih (by simpa [e] using h)

theorem DistPrepare.relaxed_rest {o : Opts} {mu0 : Rat} {next : Sym} {ins outs : List Sym} {p : Ocp}
    {s : Prep} {r : Relax} (hc : Coupled o next ins outs p s) (hz : Sized s.problem)
    (hg : GuessesFit s.problem) (hd : (p.model.y ++ ins).Nodup)
    (hq : p.model.alg.length = p.model.y.length)
    (ha : (p.model.alg ++ inputEquations o next ins).Nodup) (ht : p.timeGEq.length = p.gEq.length)
    (hleft : outs ≠ [] → p.gEq.length + outs.length ≤ p.model.alg.length) (hp : Sized p)
    (hrun : Relax.relax mu0 (relaxArgs s) (Relax.start s.problem s.next) = (.ok (), r)) :
    (∀ v ∈ p.model.u, (bounds r.problem.model.u r.problem.duMax).lookup v =
      if v ∈ ins then some ⊤ else (bounds p.model.u p.duMax).lookup v) ∧
    (∀ v ∈ p.model.u, (bounds r.problem.model.u r.problem.duMin).lookup v =
      if v ∈ ins then some ⊥ else (bounds p.model.u p.duMin).lookup v) ∧
    (r.problem.uMax.length = r.problem.model.u.length ∧
      r.problem.uMin.length = r.problem.model.u.length ∧
      r.problem.duMax.length = r.problem.model.u.length ∧
      r.problem.duMin.length = r.problem.model.u.length) ∧
    (r.problem.gIneq = p.gIneq ∧ r.problem.timeGIneq = p.timeGIneq ∧ r.problem.h = p.h ∧
      r.problem.hInitial = p.hInitial ∧ r.problem.hFinal = p.hFinal ∧ r.problem.x0 = p.x0) ∧
    (r.problem.V = p.V ∧ r.problem.S = p.S) ∧
    ∀ v ∈ r.nuSym ++ r.muSym, next + (ins.length + outs.length) * o.degree ≤ v := by
  have hl : (inputEquations o next ins).length = ins.length := by simp [inputEquations]
  have hlo : (outputEquations o next ins.length outs).length = outs.length := by
    simp [outputEquations]
  have hcall : RelaxableCall s.problem (relaxArgs s) := by
    refine { sized := hz, algebraic := ?_, bounds := fun h => (by cases h), time := ?_, tags := ?_,
             left := ?_ }
    · by_cases hne : ins = []
      · left
        show s.algInd = []
        rw [hc.algInd, hne]; rfl
      · exact .inr (relaxable hc hz hg hd hq ha hne)
    · show Positions s.problem.gEq s.eqInd
      rw [hc.gEq, hc.eqInd, ← hlo]; exact positions_suffix _ _
    · rw [hc.gEq, hc.timeGEq]; simp [ht, hlo]
    · intro i hi
      have hi' : i ∈ List.range' p.gEq.length outs.length := by rw [← hc.eqInd]; exact hi
      show i + s.algInd.length < _
      have h₁ := List.mem_range'_1.1 hi'
      have h₂ := hleft (by rintro rfl; simp at h₁; omega)
      rw [hc.alg, hc.algInd]
      simp only [List.length_append, hl, List.length_range']
      omega
  obtain ⟨s₂, vidx, o₁, hP, hv, hs₂, -⟩ := relaxedParts hcall hrun
  obtain rfl := hs₂ rfl
  have ey : entriesAt s.problem.model.y vidx = ins := by
    rw [← hv]
    split
    · next h0 =>
      have h1 : s.algInd = [] := h0
      rw [hc.algInd] at h1
      have := congrArg List.length h1
      simp at this
      exact this.symm
    · show entriesAt s.problem.model.y s.yRelax = ins
      rw [hc.y, hc.yRelax]; exact entriesAt_suffix _ _
  obtain ⟨g₁, g₂, g₃, g₄, g₅, g₆, g₇, g₈⟩ := hP.rest
  obtain ⟨b₁, b₂, b₃, b₄, b₅, b₆, b₇, b₈⟩ := hP.bounds
  have hA := hP.relaxed
  have hu : r.problem.model.u = s.problem.model.u ++ ins := by
    rw [hP.same.2.2.1, hA.u, ey]
  obtain ⟨c₁, c₂, c₃, -, c₅, -, c₇⟩ := hc.rest.constraints
  have rate : ∀ (b b' : List XRat) (t : XRat), b'.length = s.problem.model.u.length →
      bounds s.problem.model.u b' = boundsWithout ins (bounds p.model.u b) →
      ∀ v ∈ p.model.u, (bounds (s.problem.model.u ++ ins) (b' ++ List.replicate ins.length t)).lookup v =
        if v ∈ ins then some t else (bounds p.model.u b).lookup v := by
    intro b b' t hl hb v _
    unfold bounds at hb ⊢
    rw [List.zip_append hl.symm, List.lookup_append, hb, show List.zip p.model.u b = bounds p.model.u b
      from rfl, lookup_boundsWithout]
    split
    · next hm => rw [Option.none_or, lookup_zip_replicate _ _ _ hm]
    · next hm => rw [show (ins.zip (List.replicate ins.length t)).lookup v = none from
        lookup_zip_none _ _ _ hm, Option.or_none]
  have e₁ := hc.rest.duMax
  have e₂ := hc.rest.duMin
  simp only at e₁ e₂
  refine ⟨?_, ?_, ?_, ?_, ?_, ?_⟩
  · rw [hu, b₈, hA.duMax, ey]
    exact rate _ _ _ hz.duMax e₁
  · rw [hu, b₇, hA.duMin, ey]
    exact rate _ _ _ hz.duMin e₂
  · obtain ⟨-, -, l3, l4, l5, l6⟩ := relaxedParts_sizes hz hP
    exact ⟨l4, l3, l6, l5⟩
  · exact ⟨g₁.trans (hA.gIneq.trans c₅), g₂.trans (hA.timeGIneq.trans c₇), g₃.trans (hA.h.trans c₁),
      g₄.trans (hA.hInitial.trans c₂), g₅.trans (hA.hFinal.trans c₃), g₆.trans (hA.x0.trans hc.rest.x.2.2.2)⟩
  · exact ⟨g₇.trans (hA.V.trans hc.rest.costs.2.1), g₈.trans (hA.S.trans hc.rest.costs.2.2)⟩
  · intro v hv
    rw [← hc.next]
    exact (hP.fresh v hv).1

/-- C144. When the couplings of a node have been made and relaxed, the node has its own dynamics,
equations, path equalities and bounds again, its inputs are controls with the bounds they had, and the
cost has exactly the terms of the couplings. -/
theorem C144_decoupled_partial (o : Opts) (hs : o.skip = false) (mu0 : Rat) (p : Ocp) (next : Sym)
    (ins outs : List Edge) (h : Fits p ins outs) (hg : GuessesFit p)
    (hq : p.model.alg.length = p.model.y.length)
    (ha : (p.model.alg ++ inputEquations o next (inputsOf ins)).Nodup)
    (ht : p.timeGEq.length = p.gEq.length)
    (hleft : outputsOf outs ≠ [] → p.gEq.length + (outputsOf outs).length ≤ p.model.alg.length) :
    ∃ r, prepare o mu0 ins outs p next = .ok r ∧
      Decoupled o next (inputsOf ins) (outputsOf outs) p r := by
  obtain ⟨s, hr, hc, hz, hgs⟩ := C144_coupled o hs p next ins outs h hg
  obtain ⟨r₁, hr₁, hR⟩ := relax_inputs (mu0 := mu0) h.sized hc hz hgs h.distinct hq ha
  have hlo : (outputEquations o next (inputsOf ins).length (outputsOf outs)).length =
      (outputsOf outs).length := by simp [outputEquations]
  have hst : (Relax.start s.problem s.next).problem = s.problem := rfl
  -- the path equalities
  obtain ⟨r, hr₂, hQ⟩ : ∃ r, Relax.ifEquations s.eqInd (Relax.relaxTimeEqualities mu0 s.eqInd) r₁ =
      (.ok (), r) ∧ (r.problem.gEq = p.gEq ∧ r.problem.timeGEq = p.timeGEq ∧
        r.relaxedAlg = r₁.relaxedAlg ∧
        r.relaxedEq = outputEquations o next (inputsOf ins).length (outputsOf outs) ∧
        r.problem.model.x = r₁.problem.model.x ∧ r.problem.model.ode = r₁.problem.model.ode ∧
        r.problem.model.y = r₁.problem.model.y ∧ r.problem.model.alg = r₁.problem.model.alg ∧
        r.problem.model.u = r₁.problem.model.u ∧ r.problem.uMax = r₁.problem.uMax ∧
        r.problem.uMin = r₁.problem.uMin ∧ r.problem.yMin = r₁.problem.yMin ∧
        r.problem.yMax = r₁.problem.yMax ∧ r.problem.xMin = r₁.problem.xMin ∧
        r.problem.xMax = r₁.problem.xMax) := by
    by_cases hne : outputsOf outs = []
    · refine ⟨r₁, ?_, ?_⟩
      · rw [hc.eqInd, hne]; rfl
      · refine ⟨?_, ?_, rfl, ?_, rfl, rfl, rfl, rfl, rfl, rfl, rfl, rfl, rfl, rfl, rfl⟩
        · rw [hR.gEq, hc.gEq, hne]; simp [outputEquations]
        · rw [hR.timeGEq, hc.timeGEq, hne]; simp
        · rw [hR.relaxedEq, hne]; rfl
    · have eg : r₁.problem.gEq = p.gEq ++
          outputEquations o next (inputsOf ins).length (outputsOf outs) := by rw [hR.gEq, hc.gEq]
      have et : r₁.problem.timeGEq = p.timeGEq ++ List.replicate (outputsOf outs).length "default" := by
        rw [hR.timeGEq, hc.timeGEq]
      have hpos : Positions r₁.problem.gEq s.eqInd := by
        rw [eg, hc.eqInd, ← hlo]; exact positions_suffix _ _
      have htl : r₁.problem.timeGEq.length = r₁.problem.gEq.length := by
        rw [eg, et]; simp [ht, hlo]
      have hlt : ∀ i ∈ s.eqInd, i < r₁.problem.model.alg.length := by
        intro i hi
        rw [hc.eqInd] at hi
        have := List.mem_range'_1.1 hi
        have := hleft hne
        rw [hR.alg]; omega
      have hnil : s.eqInd ≠ [] := by
        rw [hc.eqInd]
        intro h0
        have := congrArg List.length h0
        simp at this
        exact hne this
      refine ⟨Relax.afterTime mu0 s.eqInd r₁, ?_, ?_⟩
      · rw [Relax.ifEquations_run hnil hlt]
        exact Relax.relaxTime_run mu0 s.eqInd r₁ hpos htl
      · refine ⟨?_, ?_, rfl, ?_, rfl, rfl, rfl, rfl, rfl, rfl, rfl, rfl, rfl, rfl, rfl⟩
        · show otherEntries r₁.problem.gEq s.eqInd = _
          rw [eg, hc.eqInd, ← hlo]; exact otherEntries_suffix _ _
        · show otherEntries r₁.problem.timeGEq s.eqInd = _
          rw [et, hc.eqInd, ← ht,
            show (outputsOf outs).length = (List.replicate (outputsOf outs).length "default").length by simp]
          simp only [List.length_replicate]
          have := otherEntries_suffix p.timeGEq (List.replicate (outputsOf outs).length "default")
          simpa using this
        · show r₁.relaxedEq ++ entriesAt r₁.problem.gEq s.eqInd = _
          rw [hR.relaxedEq, eg, hc.eqInd, ← hlo, List.nil_append]; exact entriesAt_suffix _ _
  have hrun : Relax.relax mu0 (relaxArgs s) (Relax.start s.problem s.next) = (.ok (), r) := by
    unfold Relax.relax
    simp only [Py.bind_eq, Py.get_bind]
    rw [Py.bind_ok (show Relax.ifEquations ((relaxArgs s).alg (Relax.start s.problem s.next).problem)
      (Relax.relaxAlgebraic mu0 ((relaxArgs s).alg (Relax.start s.problem s.next).problem)
        ((relaxArgs s).algVar (Relax.start s.problem s.next).problem))
      (Relax.start s.problem s.next) = (.ok (), r₁) from hr₁),
      Py.bind_ok (show Relax.ifEquations (relaxArgs s).time
        (Relax.relaxTimeEqualities mu0 (relaxArgs s).time) r₁ = (.ok (), r) from hr₂)]
    rfl
  obtain ⟨q₁, q₂, q₃, q₄, q₅, q₆, q₇, q₈, q₉, q₁₀, q₁₁, q₁₂, q₁₃, q₁₄, q₁₅⟩ := hQ
  have hth := theta_relax (th := s.problem.model.theta) (mu0 := mu0) (a := relaxArgs s)
    (Relax.start s.problem s.next) rfl
  rw [hrun] at hth
  have hth' : r.problem.model.theta = s.problem.model.theta := hth
  obtain ⟨k₁, k₂, -⟩ := C109_own_multiplier_partial s.problem s.next mu0 (relaxArgs s) r hrun (.inr rfl)
  rw [q₃, q₄, hR.relaxedAlg] at k₁
  obtain ⟨k₃, k₄, k₅⟩ := k₁
  obtain ⟨d₁, d₂, d₃, d₄, d₅, d₆⟩ := relaxed_rest hc hz hgs h.distinct hq ha ht hleft h.sized hrun
  refine ⟨r, ?_, ?_⟩
  · unfold prepare
    rw [hr]
    simp only [hrun]
  · exact
    { x := q₅.trans hR.x
      ode := q₆.trans hR.ode
      y := q₇.trans hR.y
      alg := q₈.trans hR.alg
      gEq := q₁
      timeGEq := q₂
      u := q₉.trans hR.u
      uMax := fun v _ => by rw [q₉, q₁₀, hR.uMax v]
      uMin := fun v _ => by rw [q₉, q₁₁, hR.uMin v]
      yBounds := ⟨q₁₂.trans hR.yMin, q₁₃.trans hR.yMax⟩
      xBounds := ⟨q₁₄.trans hR.xMin, q₁₅.trans hR.xMax⟩
      duMax := fun v hv => d₁ v hv
      duMin := fun v hv => d₂ v hv
      sizes := d₃
      inequalities := ⟨d₄.1, d₄.2.1⟩
      boundary := ⟨d₄.2.2.1, d₄.2.2.2.1, d₄.2.2.2.2.1, d₄.2.2.2.2.2⟩
      otherCosts := d₅
      fresh := d₆
      theta := by rw [hth', hc.theta]
      penalties := by rw [k₂, hc.parameters]
      cost := ⟨k₃, k₄, fun K _ _ ops ρ => by
        rw [k₅ K ops ρ]
        have := hc.rest.costs.1
        simp only at this
        rw [this]⟩ }

/-- C144. Fails for a node with more outputs to pass on than it has equations, such as one output that
feeds two nodes: the method cannot be made. -/
theorem C144_outputs_fails (o : Opts) (hs : o.skip = false) (mu0 : Rat) (p : Ocp) (next : Sym)
    (ins outs : List Edge) (h : Fits p ins outs) (hg : GuessesFit p)
    (hq : p.model.alg.length = p.model.y.length)
    (ha : (p.model.alg ++ inputEquations o next (inputsOf ins)).Nodup)
    (hne : outputsOf outs ≠ [])
    (hmany : p.model.alg.length < p.gEq.length + (outputsOf outs).length) :
    prepare o mu0 ins outs p next = .error .runtimeError := by
  obtain ⟨s, hr, hc, hz, hgs⟩ := C144_coupled o hs p next ins outs h hg
  obtain ⟨r₁, hr₁, hR⟩ := relax_inputs (mu0 := mu0) h.sized hc hz hgs h.distinct hq ha
  have hpos : 0 < (outputsOf outs).length := List.length_pos_iff.2 hne
  have hrun : (Relax.relax mu0 (relaxArgs s) (Relax.start s.problem s.next)) =
      (.error .runtimeError, r₁) := by
    unfold Relax.relax
    simp only [Py.bind_eq, Py.get_bind]
    rw [Py.bind_ok (show Relax.ifEquations ((relaxArgs s).alg (Relax.start s.problem s.next).problem)
      (Relax.relaxAlgebraic mu0 ((relaxArgs s).alg (Relax.start s.problem s.next).problem)
        ((relaxArgs s).algVar (Relax.start s.problem s.next).problem))
      (Relax.start s.problem s.next) = (.ok (), r₁) from hr₁)]
    rw [Py.bind_error (Relax.ifEquations_error (i := p.gEq.length + (outputsOf outs).length - 1) ?_ ?_)]
    · show _ ∈ s.eqInd
      rw [hc.eqInd, List.mem_range'_1]
      omega
    · rw [hR.alg]; omega
  unfold prepare
  rw [hr]
  simp only [hrun]

/-- The values a node gets for one element. -/
theorem DistPrepare.nodeTheta_length {K : Type} (degree : Nat) (links : List (DistAL.Link K)) (el : Nat)
    (hl : ∀ l ∈ links, l.vector.Nodup) : (DistAL.nodeTheta degree links el).length ≤
      (links.map fun l => l.vars.length).sum * degree := by
  induction links with
  | nil => simp [DistAL.nodeTheta]
  | cons l ls ih =>
    have h₁ := ih fun k hk => hl k (by simp [hk])
    have h₂ : (DistAL.linkTheta degree el l).length ≤ l.vars.length * degree := by
      have h₃ := DistAL.findIndices_length (hl l (by simp)) l.vars
      have h₄ := List.length_filter_le (fun v => decide (v ∈ l.vector)) l.vars
      simp only [DistAL.linkTheta, List.length_flatMap, List.length_map, List.length_range,
        List.map_const', List.sum_replicate, smul_eq_mul]
      exact Nat.mul_le_mul_right _ (by omega)
    simp only [DistAL.nodeTheta, List.flatMap_cons, List.length_append, List.map_cons, List.sum_cons,
      Nat.add_mul]
    simp only [DistAL.nodeTheta] at h₁
    omega

/-- C144. Fails for a problem with piecewise constant parameters of its own: the values exchanged
between the nodes do not fill the parameters of the node. -/
theorem C144_parameters_fails (o : Opts) (mu0 : Rat) (p : Ocp) (next : Sym) (ins outs : List Edge)
    (r : Relax) (h : prepare o mu0 ins outs p next = .ok r) (hp : p.model.theta ≠ [])
    {K : Type} (links : List (DistAL.Link K)) (el : Nat)
    (hl : ∀ l ∈ links, l.vector.Nodup)
    (hn : (links.map fun l => l.vars.length).sum =
      (ins.map fun e => e.y.length).sum + (outs.map fun e => e.u.length).sum) :
    (DistAL.nodeTheta o.degree links el).length < r.problem.model.theta.length := by
  have h₁ := nodeTheta_length o.degree links el hl
  have h₂ := prepare_theta h
  have h₃ : 0 < p.model.theta.length := List.length_pos_iff.2 hp
  rw [hn] at h₁
  omega

/-- C144. Fails for a network that is solved twice: the second call adds the couplings again, and the
values exchanged only fill one half of the parameters. -/
theorem C144_twice_fails (o : Opts) (mu0 : Rat) (p : Ocp) (next next' : Sym) (ins outs : List Edge)
    (r r' : Relax) (h : prepare o mu0 ins outs p next = .ok r)
    (h' : prepare o mu0 ins outs r.problem next' = .ok r') (hd : 0 < o.degree)
    (hc : 0 < (ins.map fun e => e.y.length).sum + (outs.map fun e => e.u.length).sum)
    {K : Type} (links : List (DistAL.Link K)) (el : Nat)
    (hl : ∀ l ∈ links, l.vector.Nodup)
    (hn : (links.map fun l => l.vars.length).sum =
      (ins.map fun e => e.y.length).sum + (outs.map fun e => e.u.length).sum) :
    2 * (DistAL.nodeTheta o.degree links el).length ≤ r'.problem.model.theta.length ∧
      (DistAL.nodeTheta o.degree links el).length < r'.problem.model.theta.length := by
  have h₁ := nodeTheta_length o.degree links el hl
  have h₂ := prepare_theta h
  have h₃ := prepare_theta h'
  have h₄ := Nat.mul_pos hc hd
  rw [hn] at h₁
  omega

/-! ### Examples -/

namespace Example

/-- A tank: level `0`, outflow `1`, own input `3` and inflow `4`, which is the output `50` of another
tank; the outflow is the input `60` of a third one. -/
def tankModel : SysModel :=
  { SysModel.new 10 11 with
    x := [0], x0 := [20], y := [1], u := [4, 3], uExpr := [.sym 4, .sym 3], uPar := [4, 3]
    ode := [(0, some (.sub (.sym 4) (.sym 1)))]
    alg := [.sub (.sym 1) (.sym 0)] }

/-- Its problem, with bounds and a rate limit for the inflow. -/
def tank : Ocp :=
  { Ocp.new tankModel (some [1]) 0 1 with
    uMin := [XRat.fin 0, XRat.fin (-1)]
    uMax := [XRat.fin 5, XRat.fin 1]
    duMax := [XRat.fin 2, ⊤]
    L := .mul (.sym 0) (.sym 0) }

/-- Approximations of degree two. -/
def tankOpts : Opts := { degree := 2, approx := fun l => (l.map Expr.sym).foldl .add (.const 0) }

/-- From the tank before. -/
def tankIn : Edge := { y := [50], u := [4] }

/-- To the tank after. -/
def tankOut : Edge := { y := [1], u := [60] }

/-- To one more tank. -/
def tankOut' : Edge := { y := [1], u := [61] }

end Example

/-- The hypotheses of the theorems hold for the tank. -/
theorem Example.tank_fits (outs : List Edge) (h : ∀ e ∈ outs, e.u.length = e.y.length) :
    Fits Example.tank [Example.tankIn] outs where
  sized := by constructor <;> decide +kernel
  controls := by decide +kernel
  expressions := by decide +kernel
  sizes := by decide +kernel
  sizesOut := h
  inputs := by decide +kernel
  distinct := by decide +kernel

example : Fits Example.tank [Example.tankIn] [Example.tankOut] ∧ GuessesFit Example.tank ∧
    (Example.tank.model.alg ++ inputEquations Example.tankOpts 100 (inputsOf [Example.tankIn])).Nodup ∧
    Example.tank.gEq.length + (outputsOf [Example.tankOut]).length ≤ Example.tank.model.alg.length :=
  ⟨Example.tank_fits _ (by decide), .inl ⟨rfl, rfl⟩, by decide +kernel, by decide +kernel⟩

/-- One output that feeds two tanks. -/
example : prepare Example.tankOpts 1 [Example.tankIn] [Example.tankOut, Example.tankOut'] Example.tank 100 =
    .error .runtimeError :=
  C144_outputs_fails _ rfl _ _ _ _ _ (Example.tank_fits _ (by decide)) (.inl ⟨rfl, rfl⟩)
    (by decide +kernel) (by decide +kernel) (by decide +kernel) (by decide +kernel)

/-- The whole problem after the preparation. -/
example : ∃ r, prepare Example.tankOpts 1 [Example.tankIn] [Example.tankOut] Example.tank 100 = .ok r ∧
    r.problem.model.u = [3, 4] ∧ r.problem.uMax = [XRat.fin 1, XRat.fin 5] ∧
    r.problem.model.theta = [100, 101, 102, 103] ∧ r.nRelax = 2 := by
  refine ⟨((prepare Example.tankOpts 1 [Example.tankIn] [Example.tankOut] Example.tank 100).toOption).getD
    (Relax.start Example.tank 0), ?_⟩
  decide +kernel

/-- C144. Fails for the rate limit of an input: in the node it is gone. -/
theorem C144_rate_fails : ∃ r,
    prepare Example.tankOpts 1 [Example.tankIn] [Example.tankOut] Example.tank 100 = .ok r ∧
    (bounds Example.tank.model.u Example.tank.duMax).lookup 4 = some (XRat.fin 2) ∧
    (bounds r.problem.model.u r.problem.duMax).lookup 4 = some ⊤ := by
  refine ⟨((prepare Example.tankOpts 1 [Example.tankIn] [Example.tankOut] Example.tank 100).toOption).getD
    (Relax.start Example.tank 0), ?_⟩
  decide +kernel

/-- A second call is possible. -/
example : ∃ r r', prepare Example.tankOpts 1 [Example.tankIn] [Example.tankOut] Example.tank 100 = .ok r ∧
    prepare Example.tankOpts 1 [Example.tankIn] [Example.tankOut] r.problem 200 = .ok r' ∧
    r'.problem.model.theta.length = 8 := by
  refine ⟨((prepare Example.tankOpts 1 [Example.tankIn] [Example.tankOut] Example.tank 100).toOption).getD
    (Relax.start Example.tank 0), ((prepare Example.tankOpts 1 [Example.tankIn] [Example.tankOut]
      (((prepare Example.tankOpts 1 [Example.tankIn] [Example.tankOut] Example.tank 100).toOption).getD
    (Relax.start Example.tank 0)).problem 200).toOption).getD (Relax.start Example.tank 0), ?_⟩
  decide +kernel

end Verif
