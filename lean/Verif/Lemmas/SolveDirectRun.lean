import Verif.Lemmas.SolveDirect
import Verif.Props.Transcribe
import Verif.Props.CollocationGrid
import Verif.Props.Export
import Verif.Props.SolverArgs
import Verif.Props.Theta
/-! Lemmas on a run of `solve` of a direct method. -/
namespace Verif
namespace SolveDirect
open Spec Layout Direct

variable {K : Type} [Field K]

/-! ## The prepared problem -/

/-- What the preparation leaves of the data of the problem. -/
structure Kept (xc : Sym) (o q : Ocp) : Prop where
  xCost : q.xCost = some xc
  x0 : q.x0 = o.x0 ++ [0]
  xMin : q.xMin = o.xMin ++ [if o.positiveObjective then XRat.fin 0 else ⊥]
  xMax : q.xMax = o.xMax ++ [⊤]
  y : q.yMin = o.yMin ∧ q.yMax = o.yMax
  u : q.uMin = o.uMin ∧ q.uMax = o.uMax
  pOpt : q.pOptMin = o.pOptMin ∧ q.pOptMax = o.pOptMax
  thetaOpt : q.thetaOptMin = o.thetaOptMin ∧ q.thetaOptMax = o.thetaOptMax
  lastU : q.lastU = o.lastU

theorem kept_of {roots : List Rat} {degree : Nat} {xc fresh base : Sym} {s s' : Method}
    (hc : s.hasCostState = false) (h : prepare roots degree xc fresh base s = (.ok (), s')) :
    Kept xc s.problem s'.problem := by
  obtain ⟨o₁, h₁, rfl⟩ := prepare_first hc h
  obtain ⟨hxc, -, -, -, hx0, -, -, hmin, hmax, -⟩ := C41_added xc fresh s.problem o₁ h₁
  obtain ⟨o₂, h₂, rfl⟩ := Ocp.createCostState_ok_iff.mp h₁
  obtain ⟨-, lo, hi, m', hh, hlo, hhi, -, -, -, h₆, h₇, rfl⟩ := Ocp.includeState_ok_iff.mp h₂
  exact ⟨hxc, hx0, hmin, hmax, ⟨rfl, rfl⟩, ⟨rfl, rfl⟩, ⟨rfl, rfl⟩, ⟨rfl, rfl⟩, rfl⟩

/-- The cost state has room. -/
theorem fits_cost {n : Nat} {lo hi : List XRat} (c : XRat) (h : PairFits n lo hi) :
    PairFits (n + 1) (lo ++ [c]) (hi ++ [⊤]) := by
  refine ⟨by simp [h.lower], by simp [h.upper], fun i a b ha hb => ?_⟩
  by_cases hi' : i < n
  · rw [List.getElem?_append_left (by rw [h.lower]; exact hi')] at ha
    rw [List.getElem?_append_left (by rw [h.upper]; exact hi')] at hb
    exact h.uncrossed i a b ha hb
  · rw [List.getElem?_append_right (by rw [h.upper]; omega), h.upper] at hb
    have := List.mem_of_getElem? hb
    simp only [List.mem_singleton] at this
    subst this
    exact le_top

/-! ## Parameters -/

omit [Field K] in
theorem allSlots_nodup (S : MethodSetup K) : S.allSlots.Nodup := by
  have inj : ∀ (n : Nat) (f : Nat → ParSlot), Function.Injective f → ((List.range n).map f).Nodup :=
    fun n f hf => List.nodup_range.map hf
  unfold MethodSetup.allSlots
  refine List.Nodup.append (List.Nodup.append (List.Nodup.append (inj _ _ ?_) ?_ ?_) (inj _ _ ?_) ?_) ?_ ?_
  · exact fun a b h => by cases h; rfl
  · rw [List.nodup_flatMap]
    refine ⟨fun el _ => inj _ _ fun a b h => by cases h; rfl, List.nodup_range.imp ?_⟩
    intro a b hab
    simp only [Function.onFun, List.disjoint_left, List.mem_map, not_exists, not_and]
    rintro c ⟨i, -, rfl⟩ j - h
    cases h
    exact hab rfl
  · simp only [List.disjoint_left, List.mem_map, List.mem_flatMap]
    rintro _ ⟨i, -, rfl⟩ ⟨el, -, j, -, h⟩
    cases h
  · exact fun a b h => by cases h; rfl
  · simp only [List.disjoint_left, List.mem_map, List.mem_append, List.mem_flatMap]
    rintro _ (⟨i, -, rfl⟩ | ⟨el, -, i, -, rfl⟩) ⟨j, -, h⟩ <;> cases h
  · split
    · exact inj _ _ fun a b h => by cases h; rfl
    · exact List.nodup_nil
  · split
    · simp only [List.disjoint_left, List.mem_map, List.mem_append, List.mem_flatMap]
      rintro _ ((⟨i, -, rfl⟩ | ⟨el, -, i, -, rfl⟩) | ⟨i, -, rfl⟩) ⟨j, -, h⟩ <;> cases h
    · simp

/-- Reading the parameters gives the vectors they were put together from. -/
theorem parameters_read (S : MethodSetup K) (hh : S.hasParameters = true) (p x0 l : List K)
    (th : List (List K)) (hp : p.length = S.nP) (hth : Columns S.elements S.nTheta th)
    (hx : x0.length = S.nX) (hl : l.length = if S.lastControlAsParameter then S.nU else 0) :
    (p ++ th.flatten ++ x0 ++ l).length = S.nlpParameters.length ∧
    (List.range S.nP).map (fun i => valueIn S.nlpParameters (p ++ th.flatten ++ x0 ++ l) (.p i)) = p ∧
    (List.range S.elements).map (fun el => (List.range S.nTheta).map fun i =>
      valueIn S.nlpParameters (p ++ th.flatten ++ x0 ++ l) (.theta el i)) = th ∧
    (List.range S.nX).map (fun i => valueIn S.nlpParameters (p ++ th.flatten ++ x0 ++ l) (.x0 i)) = x0 ∧
    (S.lastControlAsParameter = true →
      (List.range S.nU).map (fun i => valueIn S.nlpParameters (p ++ th.flatten ++ x0 ++ l) (.lastU i)) =
        l) := by
  have hn : S.nlpParameters = S.allSlots := by unfold MethodSetup.nlpParameters; rw [if_pos hh]
  have hthl := flatten_length_of_columns hth
  have hslots : ((List.range S.elements).flatMap fun el =>
      (List.range S.nTheta).map (ParSlot.theta el)).length = S.elements * S.nTheta := by
    rw [List.flatMap]
    exact flatten_length_of_columns (columns_map _ _ _ fun _ => by simp)
  have hlen : (p ++ th.flatten ++ x0 ++ l).length = S.allSlots.length := by
    unfold MethodSetup.allSlots
    simp only [List.length_append, List.length_map, List.length_range, hslots, hthl, hp, hx, hl]
    split <;> simp
  rw [hn]
  have hm := map_valueIn S.allSlots (p ++ th.flatten ++ x0 ++ l) (allSlots_nodup S) hlen
  generalize valueIn S.allSlots (p ++ th.flatten ++ x0 ++ l) = f at hm
  unfold MethodSetup.allSlots at hm
  simp only [List.map_append, List.map_map, List.map_flatMap] at hm
  obtain ⟨hm, h₄⟩ := List.append_inj hm (by
    simp only [List.length_append, List.length_map, List.length_range, hthl, hp, hx, List.flatMap]
    rw [flatten_length_of_columns (columns_map _ S.nTheta _ fun _ => by simp)])
  obtain ⟨hm, h₃⟩ := List.append_inj' hm (by simp [hx])
  obtain ⟨h₁, h₂⟩ := List.append_inj hm (by simp [hp])
  refine ⟨hlen, h₁, ?_, h₃, fun hlast => ?_⟩
  · rw [List.flatMap] at h₂
    exact columns_inj (columns_map _ S.nTheta _ fun _ => by simp) hth h₂
  · rw [if_pos hlast, List.map_map] at h₄
    exact h₄

/-- The arguments of the solver. -/
theorem callArgs_ok (S : MethodSetup K) (sim info : List K → Theta K → Except Err (List K))
    (a : SolveArgs K) {x0 p v : List K} {th : Theta K} {lu : Option (List K)} {l : List K}
    (h₁ : S.initialCondition a.x0 = .ok x0) (h₂ : S.parameterValues a.p = .ok p)
    (h₃ : S.thetaValues a.theta = .ok th) (h₄ : S.thetaVector th = .ok v)
    (h₅ : S.lastControl a.lastU = .ok (lu, l))
    (h₆ : a.guessDict ≠ none ∨ ∃ g, S.guess a.initialGuess sim info p th = .ok g) :
    ∃ g lx lg, S.callArgs sim info a =
      .ok ⟨g, p ++ v ++ (if S.initialConditionAsParameter then x0 else []) ++ l, lx, lg, p, th, x0, lu⟩ := by
  unfold MethodSetup.callArgs
  simp only [h₁, h₂, h₃, h₄, h₅, bind, Except.bind]
  cases hg : a.guessDict with
  | none =>
    obtain ⟨g, h₆⟩ := h₆.resolve_left (not_not.mpr hg)
    simp only [h₆]
    exact ⟨_, _, _, rfl⟩
  | some t => exact ⟨_, _, _, rfl⟩

omit [Field K] in
theorem thetaVector_of (S : MethodSetup K) (th : Theta K) (w : Nat → List K)
    (h : ∀ el < S.elements, th.get? el = some (w el)) :
    S.thetaVector th = .ok ((List.range S.elements).map w).flatten := by
  unfold MethodSetup.thetaVector
  rw [mapM_ok (MethodSetup.thetaAt th) w _ fun el hel => by
    unfold MethodSetup.thetaAt
    rw [h el (List.mem_range.mp hel)]]
  rfl

/-! ## Reported trajectories -/

section
variable [LinearOrder K] [IsStrictOrderedRing K]

theorem grid_samples {e k n : Nat} {g : List (List (List K))} (hg : Grid e k n g) (nodes : List K)
    (hk : nodes.length = k) (hn : nodes.Nodup) :
    g = sampleTable e n nodes fun el i => through nodes (g.getD el []) i := by
  refine Transcription.grid_eq_map hg fun el hel => Transcription.columns_eq_map ?_ fun j hj => ?_
  · rw [(Transcription.grid_columns hg hel).1, hk]
  · have hlen : ((g.getD el []).getD j []).length = n :=
      (Transcription.grid_columns hg hel).2 _ (by
        rw [List.getD_eq_getElem?_getD (l := g.getD el []), List.getElem?_eq_getElem (by
          rw [(Transcription.grid_columns hg hel).1, ← hk]; exact hj)]
        exact List.getElem_mem _)
    refine List.ext_getElem (by rw [hlen]; simp) fun i h₁ h₂ => ?_
    simp only [List.getElem_map, List.getElem_range]
    unfold through
    have := Lagrange.eval_interpolate_at_node (s := Finset.univ) (v := nodes.get)
      (fun j : Fin nodes.length => ((g.getD el []).getD j []).getD i 0)
      (nodes_injOn hn) (Finset.mem_univ (⟨j, hj⟩ : Fin nodes.length))
    rw [List.get_eq_getElem] at this
    rw [this, List.getD_eq_getElem?_getD (l := (g.getD el []).getD j []), List.getElem?_eq_getElem h₂]
    rfl

omit [LinearOrder K] [IsStrictOrderedRing K] in
theorem grid_constant {e n : Nat} {g : List (List (List K))} (hg : Grid e 1 n g) (r t : K) :
    g = sampleTable e n [t] fun el i => through [r] (g.getD el []) i := by
  refine Transcription.grid_eq_map hg fun el hel => ?_
  obtain ⟨c, hc⟩ := List.length_eq_one_iff.mp (Transcription.grid_columns hg hel).1
  have hlen : c.length = n := (Transcription.grid_columns hg hel).2 c (by rw [hc]; simp)
  rw [hc]
  simp only [List.map_cons, List.map_nil, List.cons.injEq, and_true]
  refine List.ext_getElem (by simp [hlen]) fun i h₁ h₂ => ?_
  simp only [List.getElem_map, List.getElem_range]
  rw [hc, through_single, List.getD_eq_getElem?_getD, List.getElem?_eq_getElem h₁]
  rfl

/-! ## The program -/

omit [IsStrictOrderedRing K] in
/-- Without limits on the changes of the controls the last control does not matter. -/
theorem discretize_unlimited (m : Transcription K) (h : m.hasDeltaU = false)
    (b : Blocks K) (x0 p : List K) (theta : List (List K)) (l l' : Option (List K)) :
    m.discretize b x0 p theta l = m.discretize b x0 p theta l' := by
  have : ∀ l el, m.rates b l el = .ok [] := by
    intro l el
    unfold Transcription.rates
    rw [if_neg (by simp [h])]
    rfl
  have hc : ∀ r el, m.consOf b l r el = m.consOf b l' r el := by
    intro r el
    unfold Transcription.consOf Transcription.elementCons
    rw [this l, this l']
  unfold Transcription.discretize
  simp only [funext (hc _)]

section Program
variable {ops : Expr.Ops K} {opts : Options} {names : NewNames} {o q : Ocp} {S : Expr → Expr}

/-- The problem of the user and the prepared one. -/
structure BaseRun (opts : Options) (names : NewNames) (o q : Ocp) (S : Expr → Expr) : Prop where
  controlMesh : ControlMesh (mesh opts)
  problem : DirectProblem o
  scope : DirectScope o
  new : NewSymbols o names.xc names.fresh names.base
  prepared : Prepared opts.controlRoots names.xc names.fresh names.base o q S
  kept : Kept names.xc o q
  symbols : (problemSymbols o).Nodup
  bounds : BoundsFit o
  controls : 0 < o.model.u.length

/-- Moreover, what collocation needs. -/
structure Run (opts : Options) (names : NewNames) (o q : Ocp) (S : Expr → Expr) : Prop extends
    BaseRun opts names o q S where
  mesh : GoodMesh (mesh opts)
  newVars : NewVariables (directDims o (Spec.mesh opts)) names.var

/-- The values given for the elements. -/
def thetaOf (opts : Options) (theta : List (List K)) : List (List K) :=
  (List.range opts.elements).map fun el => theta.getD el []

namespace BaseRun
variable (R : BaseRun opts names o q S)
include R

theorem dims_eq : q.dims opts.elements opts.roots.length opts.controlRoots.length =
    directDims o (Spec.mesh opts) := by
  obtain ⟨h₁, h₂, h₃, h₄, h₅, h₆, h₇, h₈, h₉⟩ := R.prepared.symbols
  obtain ⟨g₁, g₂, g₃⟩ := R.prepared.others
  simp [Ocp.dims, directDims, h₃, h₅, h₈, h₉, g₁, g₂, g₃, newSyms, Spec.mesh]

theorem varBounds_eq : varBounds q =
    ⟨(numbers (o.xMin ++ [if o.positiveObjective then XRat.fin 0 else ⊥]), numbers (o.xMax ++ [⊤])),
      (numbers o.yMin, numbers o.yMax), (numbers o.uMin, numbers o.uMax),
      (numbers o.pOptMin, numbers o.pOptMax), (numbers o.thetaOptMin, numbers o.thetaOptMax)⟩ := by
  have h := R.kept
  unfold varBounds
  rw [h.xMin, h.xMax, h.y.1, h.y.2, h.u.1, h.u.2, h.pOpt.1, h.pOpt.2, h.thetaOpt.1, h.thetaOpt.2]

omit [LinearOrder K] [IsStrictOrderedRing K] in
/-- The last control as a parameter. -/
theorem last_of (hlast : LastFits o opts) {w : Option (List K)}
    (hw : w = none ∨ o.lastU = none ∧ opts.lastControlAsParameter = false) :
    ∃ (l : List K) (lu : Option (List K)), (setup (K := K) opts q).lastControl w =
        .ok (lu, if (setup (K := K) opts q).lastControlAsParameter then l else []) ∧
      lastOf o = (if (setup (K := K) opts q).lastControlAsParameter then some l else none) ∧
      ((setup (K := K) opts q).lastControlAsParameter = false → NoRateLimits o) := by
  have hpl : (setup (K := K) opts q).problemLastU = lastOf o := by
    show q.lastU.map _ = _
    rw [R.kept.lastU]
    rfl
  have hopt : (setup (K := K) opts q).lastControlOption = opts.lastControlAsParameter := rfl
  unfold MethodSetup.lastControl MethodSetup.lastControlAsParameter
  rw [hpl, hopt]
  cases ho : o.lastU with
  | some u =>
    obtain rfl : w = none := hw.resolve_right fun h => by rw [ho] at h; cases h.1
    refine ⟨inField u, some (inField u), ?_, ?_, ?_⟩ <;> simp [lastOf, ho, inField]
  | none =>
    have hno : NoRateLimits o := hlast.limited.resolve_left (not_not.mpr ho)
    have hask : opts.lastControlAsParameter = false := by
      by_contra h
      exact hlast.asked (by simpa using h) ho
    refine ⟨[], w, ?_, by simp [lastOf, ho, hask], fun _ => hno⟩
    cases w <;> simp [lastOf, ho, hask]

omit [LinearOrder K] [IsStrictOrderedRing K] in
/-- The arguments of `solve` give the parameters of the nonlinear program. -/
theorem args_ok {a : SolveArgs K} {sim info : List K → Theta K → Except Err (List K)} {x0 p : List K}
    {theta : List (List K)} (hd : DataFits o (Spec.mesh opts) x0 p theta)
    (ha : ArgsFit o opts a sim info x0 p theta) {l : List K}
    {w lu : Option (List K)} (hl : (setup (K := K) opts q).lastControl w = .ok (lu, l))
    (hic : opts.initialConditionAsParameter = true) :
    ∃ c, (setup opts q).callArgs sim info { a with lastU := w } = .ok c ∧ c.x0 = x0 ++ [0] ∧ c.p = p ∧
      c.par = p ++ ((List.range opts.elements).map fun el => theta.getD el []).flatten ++ (x0 ++ [0]) ++ l ∧
      c.theta = a.theta.getD (createConstantTheta 0 o.model.theta.length opts.elements) := by
  have hx : q.model.x.length = o.model.x.length + 1 := congrArg Dims.nX R.dims_eq
  have hp : q.model.p = o.model.p := R.prepared.symbols.2.2.2.2.2.1
  have hth : q.model.theta = o.model.theta := R.prepared.symbols.2.2.2.2.2.2.1
  have h₁ : (setup (K := K) opts q).initialCondition a.x0 = .ok (x0 ++ [0]) := by
    have hpx : (setup (K := K) opts q).problemX0 = inField o.x0 ++ [0] := by
      show q.x0.map _ = _
      rw [R.kept.x0]
      simp [inField]
    have hval : a.x0.getD (setup (K := K) opts q).problemX0 = x0 ++ [0] := by
      rw [hpx]
      rcases ha.x0 with h | ⟨h, rfl⟩
      · rw [h]; rfl
      · rw [h]; rfl
    unfold MethodSetup.initialCondition
    rw [hval, if_neg]
    rw [not_not]
    show (x0 ++ [0]).length = q.model.x.length
    rw [hx, List.length_append, hd.x0]
    rfl
  have h₂ : (setup (K := K) opts q).parameterValues a.p = .ok p := by
    rcases ha.p with h | ⟨h, he, rfl⟩
    · rw [h]; rfl
    · rw [h]
      unfold MethodSetup.parameterValues
      simp only
      rw [if_pos (by
        show q.pOpt.length = q.model.p.length
        rw [R.prepared.others.2.1, hp, he])]
      show Except.ok (List.replicate q.pOpt.length 0) = _
      rw [R.prepared.others.2.1, he]
  have h₃ : ∃ th, (setup (K := K) opts q).thetaValues a.theta = .ok th ∧
      (∀ el < opts.elements, th.get? el = some (theta.getD el [])) ∧
      th = a.theta.getD (createConstantTheta 0 o.model.theta.length opts.elements) := by
    rcases ha.theta with ⟨th, h, hg⟩ | ⟨h, he, rfl⟩
    · exact ⟨th, by rw [h]; rfl, hg, by rw [h]; rfl⟩
    · refine ⟨createConstantTheta 0 o.model.theta.length opts.elements, ?_, ?_, by rw [h]; rfl⟩
      · rw [h]
        unfold MethodSetup.thetaValues
        simp only
        rw [if_pos (by
          show q.thetaOpt.length = q.model.theta.length
          rw [R.prepared.others.2.2, hth, he])]
        show Except.ok (createConstantTheta 0 q.thetaOpt.length opts.elements) = _
        rw [R.prepared.others.2.2, he]
      · intro el hel
        rw [(C04_constant (0 : K) o.model.theta.length opts.elements el).2.1 hel]
        simp [hel]
  obtain ⟨th, h₃, hget, hdef⟩ := h₃
  have h₄ := thetaVector_of (setup (K := K) opts q) th (fun el => theta.getD el []) hget
  have h₆ : a.guessDict ≠ none ∨ ∃ g, (setup (K := K) opts q).guess a.initialGuess sim info p th = .ok g := by
    rcases ha.guess with h | h | ⟨h, hg⟩ | ⟨h, hg⟩
    · exact .inl h
    · right
      cases hi : a.initialGuess with
      | none => exact absurd hi h
      | some g => exact ⟨g, rfl⟩
    · right
      cases hi : a.initialGuess with
      | some g => exact ⟨g, rfl⟩
      | none =>
        unfold MethodSetup.guess
        simp only
        rw [if_pos (show (setup (K := K) opts q).heuristic = "simulation" from h)]
        exact hg p th
    · right
      cases hi : a.initialGuess with
      | some g => exact ⟨g, rfl⟩
      | none =>
        unfold MethodSetup.guess
        simp only
        rw [if_neg (show ¬ (setup (K := K) opts q).heuristic = "simulation" from
          fun h' => absurd (h.symm.trans h') (by decide)),
          if_pos (show (setup (K := K) opts q).heuristic = "problem_info" from h)]
        exact hg p th
  obtain ⟨g, lx, lg, hc⟩ := callArgs_ok (setup (K := K) opts q) sim info { a with lastU := w } h₁ h₂
    h₃ h₄ hl h₆
  refine ⟨_, hc, rfl, rfl, ?_, hdef⟩
  show _ ++ _ ++ (if opts.initialConditionAsParameter then _ else _) ++ _ = _
  rw [if_pos hic]
  rfl

omit [IsStrictOrderedRing K] in
theorem unlimited {m : Transcription K} (hnu : m.dims.nU = o.model.u.length)
    (hmin : m.duMin = q.duMin.map Ocp.boundValue) (hmax : m.duMax = q.duMax.map Ocp.boundValue)
    {L : Option (List K)} (hl : LimitsFit o L) (h : NoRateLimits o) : m.hasDeltaU = false := by
  unfold Transcription.hasDeltaU
  rw [hnu, List.any_eq_false]
  intro i hi
  rw [List.mem_range] at hi
  have h₁ : m.duMax[i]? = some ⊤ := by
    rw [hmax, R.prepared.limits.2, List.getElem?_map, List.getElem?_eq_getElem (by rw [hl.max]; exact hi),
      h.2 _ (List.getElem_mem _)]
    rfl
  have h₂ : m.duMin[i]? = some ⊥ := by
    rw [hmin, R.prepared.limits.1, List.getElem?_map, List.getElem?_eq_getElem (by rw [hl.min]; exact hi),
      h.1 _ (List.getElem_mem _)]
    rfl
  simp [h₁, h₂]

omit [IsStrictOrderedRing K] in
theorem limited {m : Transcription K} (hnu : m.dims.nU = o.model.u.length)
    (hmin : m.duMin = q.duMin.map Ocp.boundValue) (hmax : m.duMax = q.duMax.map Ocp.boundValue)
    {L : Option (List K)} (hl : LimitsFit o L) (h : ¬ NoRateLimits o) : m.hasDeltaU = true := by
  have hv : ∀ a : XRat, (Ocp.boundValue a : WithBot (WithTop K)) = ⊤ → a = ⊤ := by
    intro a ha
    match a, ha with
    | some (some r), ha => exact absurd ha (by intro h; cases h)
    | some none, _ => rfl
  have hv' : ∀ a : XRat, (Ocp.boundValue a : WithBot (WithTop K)) = ⊥ → a = ⊥ := by
    intro a ha
    match a, ha with
    | none, _ => rfl
    | some (some r), ha => exact absurd ha (by intro h; cases h)
  by_contra hd
  refine h ⟨fun a ha => ?_, fun a ha => ?_⟩
  · obtain ⟨i, hi, rfl⟩ := List.mem_iff_getElem.mp ha
    unfold Transcription.hasDeltaU at hd
    simp only [List.any_eq_true, not_exists, not_and, List.mem_range, hnu] at hd
    have := hd i (by rw [← hl.min]; exact hi)
    simp only [Bool.or_eq_true, decide_eq_true_eq, not_or, not_not] at this
    have h₁ := this.2
    rw [hmin, R.prepared.limits.1, List.getElem?_map, List.getElem?_eq_getElem hi] at h₁
    exact hv' _ (Option.some.inj h₁)
  · obtain ⟨i, hi, rfl⟩ := List.mem_iff_getElem.mp ha
    unfold Transcription.hasDeltaU at hd
    simp only [List.any_eq_true, not_exists, not_and, List.mem_range, hnu] at hd
    have := hd i (by rw [← hl.max]; exact hi)
    simp only [Bool.or_eq_true, decide_eq_true_eq, not_or, not_not] at this
    have h₁ := this.1
    rw [hmax, R.prepared.limits.2, List.getElem?_map, List.getElem?_eq_getElem hi] at h₁
    exact hv _ (Option.some.inj h₁)

omit [LinearOrder K] [IsStrictOrderedRing K] in
/-- The entry of the cost state. -/
theorem final_cost (xs : List (List (List K))) (el : List (List K)) (col : List K)
    (h₁ : xs.getLast? = some el) (h₂ : el.getLast? = some col)
    (h₃ : col.length = o.model.x.length + 1) :
    finalCostState q.xCost q.model.x xs = .ok (some [col.getD o.model.x.length 0]) := by
  rw [R.kept.xCost, R.prepared.symbols.2.2.1]
  have hnew : names.xc ∉ o.model.x := fun hmem => R.new.costState (by simp [problemSymbols, hmem])
  have hnd : (o.model.x ++ [names.xc]).Nodup := by
    have h := R.symbols
    unfold problemSymbols at h
    have hx : o.model.x.Nodup := by
      simp only [List.nodup_append] at h
      tauto
    refine hx.append (List.nodup_singleton _) ?_
    simp only [List.disjoint_singleton]
    exact hnew
  have hidx : (o.model.x ++ [names.xc]).idxOf names.xc = o.model.x.length := by
    rw [List.idxOf_append_of_notMem hnew]
    simp
  obtain ⟨a, h₄, h₅⟩ := finalCostState_ok (K := K) names.xc (o.model.x ++ [names.xc]) hnd (by simp)
    xs el col h₁ h₂ (by simp [h₃])
  rw [h₄]
  rw [hidx] at h₅
  rw [List.getD_eq_getElem?_getD, h₅]
  rfl

/-- The controls of a decision vector are values of polynomials. -/
theorem controls_shown {b : Blocks K} (hr : opts.controlRoots.Nodup)
    (hb : SharedShape (directDims o (Spec.mesh opts)) b) :
    b.u = sampleTable opts.elements o.model.u.length (reportedPositions (Spec.mesh opts))
      (controlPoly (Spec.mesh opts) b) := by
  have hcp : controlPoints (directDims o (Spec.mesh opts)) = opts.controlRoots.length := by
    unfold controlPoints
    exact if_pos (Nat.mul_pos R.controls R.controlMesh.controls)
  have hg := hb.u
  rw [hcp] at hg
  unfold reportedPositions
  split
  · rename_i h1
    obtain ⟨r, hr1⟩ := List.length_eq_one_iff.mp h1
    have h1' : opts.controlRoots.length = 1 := h1
    rw [h1'] at hg
    have := grid_constant hg (r : K) 0
    have hp : ∀ el i, controlPoly (Spec.mesh opts) b el i = through [(r : K)] (b.u.getD el []) i := by
      intro el i
      unfold controlPoly
      rw [hr1]
      rfl
    simp only [show controlPoly (Spec.mesh opts) b = fun el i => through [(r : K)] (b.u.getD el []) i from
      funext fun el => funext fun i => hp el i]
    exact this
  · exact grid_samples hg (inField opts.controlRoots) (by simp [inField])
      (hr.map Rat.cast_injective)

omit [LinearOrder K] [IsStrictOrderedRing K] in
theorem hasParameters (hic : opts.initialConditionAsParameter = true) :
    (setup (K := K) opts q).hasParameters = true := by
  unfold MethodSetup.hasParameters
  have : (setup (K := K) opts q).initialConditionAsParameter = true := hic
  simp [this]

omit [LinearOrder K] [IsStrictOrderedRing K] in
/-- Reading the vector of parameters. -/
theorem parameters_ok {x0 p l : List K} {theta : List (List K)}
    (hd : DataFits o (Spec.mesh opts) x0 p theta) (hic : opts.initialConditionAsParameter = true)
    (hl : l.length = if (setup (K := K) opts q).lastControlAsParameter then o.model.u.length else 0) :
    let S := setup (K := K) opts q
    let par := p ++ (thetaOf opts theta).flatten ++ (x0 ++ [0]) ++ l
    par.length = S.nlpParameters.length ∧
    (List.range S.nP).map (fun i => valueIn S.nlpParameters par (.p i)) = p ∧
    (List.range S.elements).map (fun el => (List.range S.nTheta).map fun i =>
      valueIn S.nlpParameters par (.theta el i)) = thetaOf opts theta ∧
    (List.range S.nX).map (fun i => valueIn S.nlpParameters par (.x0 i)) = x0 ++ [0] ∧
    (S.lastControlAsParameter = true →
      (List.range S.nU).map (fun i => valueIn S.nlpParameters par (.lastU i)) = l) := by
  have hx : q.model.x.length = o.model.x.length + 1 := congrArg Dims.nX R.dims_eq
  have hp : q.model.p = o.model.p := R.prepared.symbols.2.2.2.2.2.1
  have hth : q.model.theta = o.model.theta := R.prepared.symbols.2.2.2.2.2.2.1
  have hu : q.model.u = o.model.u := R.prepared.symbols.2.2.2.2.2.2.2.1
  exact parameters_read (setup (K := K) opts q) (R.hasParameters hic) p (x0 ++ [0]) l
    (thetaOf opts theta) (by rw [hd.p, ← hp]; rfl)
    ⟨by simp [thetaOf, setup], fun col hcol => by
      obtain ⟨el, hel, rfl⟩ := List.mem_map.mp hcol
      rw [hd.theta el (List.mem_range.mp hel), ← hth]
      rfl⟩
    (by rw [List.length_append, hd.x0]; exact hx.symm) (by rw [hl, ← hu]; rfl)

end BaseRun

namespace Run
variable (R : Run opts names o q S)
include R

omit [LinearOrder K] [IsStrictOrderedRing K] in
/-- Values of the symbols for every decision vector. -/
theorem readsAll (b : Blocks K) (x0 p : List K) (theta : List (List K)) :
    ∃ ρ, ReadsAll o (Spec.mesh opts) b x0 p theta ρ := by
  have h := fun el tau => C159_values o (Spec.mesh opts) b x0 p theta R.symbols
    ⟨R.problem.parameters.2.1, R.problem.parameters.2.2⟩ ⟨R.problem.thetas.2.1, R.problem.thetas.2.2⟩ el tau
  choose ρ hρ using h
  exact ⟨ρ, fun el _ tau => hρ el tau⟩

omit [IsStrictOrderedRing K] in
theorem setting {b : Blocks K} (hb : CollocationData (directDims o (Spec.mesh opts)) b)
    {x0 p : List K} {theta : List (List K)} (hd : DataFits o (Spec.mesh opts) x0 p theta)
    {ρ : Nat → K → Sym → K} (hρ : ReadsAll o (Spec.mesh opts) b x0 p theta ρ) :
    Setting (Spec.mesh opts) o q names.xc names.fresh names.base S b x0 p theta ρ :=
  ⟨⟨R.mesh.toControlMesh, R.problem, R.scope, R.new, R.prepared, hb.toSharedShape, hd⟩, R.mesh, hb, hρ⟩

omit [IsStrictOrderedRing K] in
/-- The transcription of the prepared problem. -/
theorem transcription_ok (ops : Expr.Ops K) :
    q.transcription ops opts.roots opts.elements opts.roots.length opts.controlRoots.length =
      .ok (Setting.built ops (Spec.mesh opts) q) := by
  let b : Blocks K := readVars (fun _ => 0) (varsOf (directDims o (Spec.mesh opts)) names.var)
  have hb : CollocationData _ b := data_readVars R.newVars.toSymSizes _
  have hd : DataFits o (Spec.mesh opts) (List.replicate o.model.x.length (0 : K))
      (List.replicate o.model.p.length 0)
      (List.replicate opts.elements (List.replicate o.model.theta.length 0)) :=
    ⟨by simp, by simp, fun el hel => by
      have : el < opts.elements := hel
      simp [this]⟩
  obtain ⟨ρ, hρ⟩ := R.readsAll b _ _ _
  exact (Ocp.transcription_ok_iff ops _ _ _ _ _ R.mesh.elements _).mpr
    ⟨(R.setting hb hd hρ).function_scope, rfl⟩

omit [IsStrictOrderedRing K] in
theorem unlimited (ops : Expr.Ops K) {L : Option (List K)} (hl : LimitsFit o L) (h : NoRateLimits o) :
    (Setting.built ops (Spec.mesh opts) q).hasDeltaU = false :=
  R.toBaseRun.unlimited (congrArg Dims.nU R.dims_eq) rfl rfl hl h

omit [IsStrictOrderedRing K] in
theorem limited (ops : Expr.Ops K) {L : Option (List K)} (hl : LimitsFit o L) (h : ¬ NoRateLimits o) :
    (Setting.built ops (Spec.mesh opts) q).hasDeltaU = true :=
  R.toBaseRun.limited (congrArg Dims.nU R.dims_eq) rfl rfl hl h

/-- The constraints and the objective of the nonlinear program are those of the user. -/
theorem value_iff (ops : Expr.Ops K) {b : Blocks K}
    (hb : CollocationData (directDims o (Spec.mesh opts)) b) {x0 p : List K} {theta : List (List K)}
    (hd : DataFits o (Spec.mesh opts) x0 p theta) {ρ : Nat → K → Sym → K}
    (hρ : ReadsAll o (Spec.mesh opts) b x0 p theta ρ) {L arg : Option (List K)} (hl : LimitsFit o L)
    (ha : arg = L ∨ NoRateLimits o) :
    ∃ cons, (Setting.built ops (Spec.mesh opts) q).discretize b (x0 ++ [0]) p theta arg =
        .ok (cons, directCost ops o (Spec.mesh opts) b ρ) ∧
      ((∀ c ∈ cons, c.Holds) ↔ DirectSolution ops o (Spec.mesh opts) b L ρ) := by
  have C := R.setting hb hd hρ
  obtain ⟨cons, h₁, h₂⟩ := C92_feasible_iff (Setting.built ops (Spec.mesh opts) q) b (x0 ++ [0]) p theta L
    (C.collocatable ops) (C.data_fits ops) (C.rates_fit ops hl)
  refine ⟨cons, ?_, ?_⟩
  · rw [← C.cost_eq ops, ← h₁]
    rcases ha with rfl | h
    · rfl
    · exact discretize_unlimited _ (R.unlimited ops hl h) _ _ _ _ _ _
  · rw [h₂, C.collocates_iff ops L]

/-- The program that is built. -/
structure Builds (ops : Expr.Ops K) (opts : Options) (names : NewNames) (o q : Ocp) (P : Program K) :
    Prop where
  transcription : P.transcription = Setting.built ops (Spec.mesh opts) q
  vars : P.vars = varsOf (directDims o (Spec.mesh opts)) names.var
  x : P.nlp.x = stacked (varsOf (directDims o (Spec.mesh opts)) names.var)
  lb : P.nlp.xLb = stacked (lowerBlocks (directDims o (Spec.mesh opts)) opts.elements
    (opts.roots.length + 1) opts.roots.length (varBounds q))
  ub : P.nlp.xUb = stacked (upperBlocks (directDims o (Spec.mesh opts)) opts.elements
    (opts.roots.length + 1) opts.roots.length (varBounds q))
  setup : P.setup = setup opts q

theorem build_ok (ops : Expr.Ops K) {L : Option (List K)} (hl : LimitsFit o L) (hlast : LastFits o opts) :
    ∃ P, build ops opts names q = .ok P ∧ Builds ops opts names o q P := by
  obtain ⟨vars, nlp, hc⟩ := succeeds_createCollocation (directDims o (Spec.mesh opts)) names.var
    R.newVars.toSymSizes (varBounds q) R.varBounds_eq (fits_cost _ R.bounds.x) R.bounds.y R.bounds.u
    R.bounds.pOpt R.bounds.thetaOpt {}
  obtain ⟨rfl, hx, hlb, hub⟩ := creates_variables _ _ _ _ names.var R.newVars.toSymSizes (varBounds q)
    _ _ _ hc
  let P : Program K := ⟨Setting.built ops (Spec.mesh opts) q,
    varsOf (directDims o (Spec.mesh opts)) names.var, nlp, setup opts q⟩
  have hP : Builds ops opts names o q P := ⟨rfl, rfl, hx, hlb, hub, rfl⟩
  refine ⟨P, ?_, hP⟩
  have hzero : ∀ slot, P.parameter [] slot = 0 := by
    intro slot
    unfold Program.parameter valueIn
    rw [List.zip_nil_right]
    rfl
  have hx' : q.model.x.length = o.model.x.length + 1 := congrArg Dims.nX R.dims_eq
  have he : ∃ r, P.evaluate [] [] = .ok r := by
    have hb : CollocationData (directDims o (Spec.mesh opts))
        (readVars (valueIn P.nlp.x ([] : List K)) P.vars) := data_readVars R.newVars.toSymSizes _
    have hd : DataFits o (Spec.mesh opts) (List.replicate o.model.x.length (0 : K))
        ((List.range q.model.p.length).map fun _ => 0)
        ((List.range opts.elements).map fun _ => (List.range q.model.theta.length).map fun _ => 0) := by
      refine ⟨by simp, by simp [R.prepared.symbols.2.2.2.2.2.1], fun el hel => ?_⟩
      have : el < opts.elements := hel
      simp [this, R.prepared.symbols.2.2.2.2.2.2.1]
    obtain ⟨ρ, hρ⟩ := R.readsAll (readVars (valueIn P.nlp.x ([] : List K)) P.vars)
      (List.replicate o.model.x.length (0 : K)) ((List.range q.model.p.length).map fun _ => 0)
      ((List.range opts.elements).map fun _ => (List.range q.model.theta.length).map fun _ => 0)
    have hx0 : (List.range P.setup.nX).map (fun i => P.parameter [] (.x0 i)) =
        List.replicate o.model.x.length (0 : K) ++ [0] := by
      simp only [hzero]
      show (List.range q.model.x.length).map _ = _
      rw [hx', List.map_const', List.length_range, List.replicate_succ']
    have hl' : LimitsFit o (Transcription.lastControlArgument true
        ((List.range q.model.u.length).map fun _ => (0 : K))) :=
      ⟨hl.min, hl.max, hl.uncrossed, fun u hu => by
        cases hu
        simp [R.prepared.symbols.2.2.2.2.2.2.2.1]⟩
    obtain ⟨cons, h, -⟩ := R.value_iff ops hb hd hρ hl' (arg := Transcription.lastControlArgument
      (setup (K := K) opts q).lastControlAsParameter
        ((List.range q.model.u.length).map fun _ => (0 : K))) (by
      rcases hlast.limited with h | h
      · left
        have : (setup (K := K) opts q).lastControlAsParameter = true := by
          unfold MethodSetup.lastControlAsParameter
          rw [Bool.or_eq_true]
          right
          show (q.lastU.map _).isSome = true
          rw [R.kept.lastU]
          cases ho : o.lastU with
          | none => exact absurd ho h
          | some _ => rfl
        rw [this]
      · exact .inr h)
    refine ⟨(cons, directCost ops o (Spec.mesh opts)
      (readVars (valueIn P.nlp.x []) P.vars) ρ), ?_⟩
    unfold Program.evaluate
    rw [hx0]
    simp only [hzero]
    exact h
  obtain ⟨r, hr⟩ := he
  unfold build
  rw [R.dims_eq, hc]
  simp only [R.transcription_ok ops, bind, Except.bind]
  have hr' : Program.evaluate ⟨Setting.built ops (Spec.mesh opts) q,
    variableBlocks (directDims o (Spec.mesh opts)) opts.elements (opts.roots.length + 1) opts.roots.length
      names.var, nlp, setup opts q⟩ [] [] = .ok r := hr
  simp only [Spec.mesh, directDims] at hr' ⊢
  rw [hr']
  rfl

theorem build_limited (ops : Expr.Ops K) {L : Option (List K)} (hl : LimitsFit o L)
    (hlast : o.lastU = none) (hopt : opts.lastControlAsParameter = false) (hlim : ¬ NoRateLimits o) :
    build ops opts names q = .error .runtimeError := by
  obtain ⟨vars, nlp, hc⟩ := succeeds_createCollocation (directDims o (Spec.mesh opts)) names.var
    R.newVars.toSymSizes (varBounds q) R.varBounds_eq (fits_cost _ R.bounds.x) R.bounds.y R.bounds.u
    R.bounds.pOpt R.bounds.thetaOpt {}
  obtain ⟨rfl, hx, hlb, hub⟩ := creates_variables _ _ _ _ names.var R.newVars.toSymSizes (varBounds q)
    _ _ _ hc
  have hb : CollocationData (directDims o (Spec.mesh opts)) (readVars (valueIn nlp.x ([] : List K))
      (varsOf (directDims o (Spec.mesh opts)) names.var)) := data_readVars R.newVars.toSymSizes _
  obtain ⟨ρ, hρ⟩ := R.readsAll (readVars (valueIn nlp.x ([] : List K))
      (varsOf (directDims o (Spec.mesh opts)) names.var)) (List.replicate o.model.x.length (0 : K))
    (List.replicate o.model.p.length 0) (List.replicate opts.elements
      (List.replicate o.model.theta.length 0))
  have hd : DataFits o (Spec.mesh opts) (List.replicate o.model.x.length (0 : K))
      (List.replicate o.model.p.length 0)
      (List.replicate opts.elements (List.replicate o.model.theta.length 0)) :=
    ⟨by simp, by simp, fun el hel => by
      have : el < opts.elements := hel
      simp [this]⟩
  have C := R.setting hb hd hρ
  have hasPar : (setup (K := K) opts q).lastControlAsParameter = false := by
    unfold MethodSetup.lastControlAsParameter
    rw [Bool.or_eq_false_iff]
    refine ⟨hopt, ?_⟩
    show (q.lastU.map _).isSome = false
    rw [R.kept.lastU, hlast]
    rfl
  have hd' := R.limited ops hl hlim
  have hr' : Program.evaluate ⟨Setting.built ops (Spec.mesh opts) q,
      variableBlocks (directDims o (Spec.mesh opts)) opts.elements (opts.roots.length + 1)
        opts.roots.length names.var, nlp, setup opts q⟩ [] [] = .error .runtimeError := by
    unfold Program.evaluate
    simp only [hasPar]
    exact C54_without_last_fails _ _ _ _ _ _ (C.collocatable ops) (C.data_fits ops)
      (C.rates_fit ops ⟨hl.min, hl.max, hl.uncrossed, fun u hu => by cases hu⟩ hd') hd'
  unfold build
  rw [R.dims_eq, hc]
  simp only [R.transcription_ok ops, bind, Except.bind]
  simp only [Spec.mesh, directDims] at hr' ⊢
  rw [hr']

/-! ### The result -/

omit [LinearOrder K] [IsStrictOrderedRing K] in
theorem step_eq (ops : Expr.Ops K) :
    elementLength (Setting.built ops (Spec.mesh opts) q) = stepLength o (Spec.mesh opts) := by
  show (((q.tf : Rat) : K) - ((q.t0 : Rat) : K)) / ((opts.elements : Nat) : K) = _
  rw [R.prepared.times.1, R.prepared.times.2]
  rfl

/-- The result shows the polynomials of the decision vector. -/
theorem report_shows (ops : Expr.Ops K) {b : Blocks K} (hr : opts.controlRoots.Nodup)
    (hb : CollocationData (directDims o (Spec.mesh opts)) b) (p : List K) (theta : List (List K))
    (raw : RawSolution K) (hraw : raw.x = stacked b) :
    ∃ r, (Setting.built ops (Spec.mesh opts) q).report (controlLaw ops opts q) p theta raw = .ok r ∧
      Shows o (Spec.mesh opts) b r ∧ r.raw = raw.x ∧ r.objective = raw.f ∧ r.success = raw.success ∧
      finalCostState q.xCost q.model.x r.xValues =
        .ok (some [(statePoly (Spec.mesh opts) b (opts.elements - 1) o.model.x.length).eval 1]) := by
  have hd : DataFits o (Spec.mesh opts) (List.replicate o.model.x.length (0 : K))
      (List.replicate o.model.p.length 0)
      (List.replicate opts.elements (List.replicate o.model.theta.length 0)) :=
    ⟨by simp, by simp, fun el hel => by
      have : el < opts.elements := hel
      simp [this]⟩
  obtain ⟨ρ, hρ⟩ := R.readsAll b (List.replicate o.model.x.length (0 : K))
    (List.replicate o.model.p.length 0)
    (List.replicate opts.elements (List.replicate o.model.theta.length 0))
  have C := R.setting hb hd hρ
  have hcol := C.collocatable ops
  have hfit := C.data_fits ops
  have hdims : (Setting.built ops (Spec.mesh opts) q).dims = directDims o (Spec.mesh opts) := R.dims_eq
  set m := Setting.built ops (Spec.mesh opts) q with hm
  have hstep : elementLength m = stepLength o (Spec.mesh opts) := R.step_eq ops
  have hn : 0 < opts.elements := R.mesh.elements
  have hcp : controlPoints (directDims o (Spec.mesh opts)) = opts.controlRoots.length := by
    unfold controlPoints
    exact if_pos (Nat.mul_pos R.controls R.mesh.controls)
  have hblocks : Layout.collocationBlocks m.dims raw.x = .ok (withFinal b) := by
    rw [hraw]
    exact Layout.collocationBlocks_stacked hcol.elements hfit.toSharedShape hfit.x hfit.y
  have hu : m.reportedControls (withFinal b) (m.controlValues (controlLaw ops opts q) (withFinal b)
      (m.fullP (withFinal b) p) (m.fullTheta (withFinal b) theta)) = .ok b.u := by
    have hfirst : itemAt (withFinal b).u 0 = .ok (b.u.getD 0 []) := by
      refine itemAt_ok ?_
      show b.u[0]? = _
      rw [List.getD_eq_getElem?_getD, List.getElem?_eq_getElem (by rw [hb.u.1]; exact hn)]
      rfl
    unfold Transcription.reportedControls
    rw [hfirst]
    simp only [bind, Except.bind]
    rw [if_neg (by
      rw [(Transcription.grid_columns hb.u hn).1, hcp]
      exact R.mesh.controls.ne')]
    rfl
  have hxs := Transcription.states_sampled m b p theta hcol hfit
  have hys := Transcription.algebraics_sampled m b p theta hcol hfit
  have hxf := Transcription.final_state m b p theta hcol hfit
  have hnx : m.dims.nX = o.model.x.length + 1 := congrArg Dims.nX hdims
  have hny : m.dims.nY = o.model.y.length := congrArg Dims.nY hdims
  have hfinal : (withFinal b).x = sampleTable opts.elements (o.model.x.length + 1)
      (0 :: inField opts.roots) (statePoly (Spec.mesh opts) b) ++
      [[(List.range (o.model.x.length + 1)).map fun i =>
        (statePoly (Spec.mesh opts) b (opts.elements - 1) i).eval 1]] := by
    unfold withFinal
    simp only
    rw [hxf]
    simp only [pointAt, hnx]
    congr 1
    rw [hxs]
    simp only [pointAt, hnx]
    rfl
  refine ⟨{
    xValues := (withFinal b).x
    xTime := (List.range m.dims.elements).map m.stateTimes
    yValues := b.y
    yTime := (List.range m.dims.elements).map m.algebraicTimes
    uValues := b.u
    uTime := (List.range m.dims.elements).map (m.controlTimes (controlLaw ops opts q))
    eta := b.eta
    pOpt := b.pOpt
    thetaOpt := b.thetaOpt
    p := m.fullP (withFinal b) p
    theta := m.fullTheta (withFinal b) theta
    objective := raw.f
    constraints := raw.g
    raw := raw.x
    success := raw.success }, ?_, ⟨?_, hfinal, ?_, ?_, ?_, ?_, rfl, rfl, rfl⟩, rfl, rfl, rfl, ?_⟩
  · unfold Transcription.report
    rw [hblocks]
    simp only [bind, Except.bind]
    rw [hu]
    rfl
  · refine List.map_congr_left fun el hel => ?_
    rw [← hstep]
    exact Transcription.grid_times m el (List.mem_range.1 hel) (0 :: m.roots)
  · refine List.map_congr_left fun el hel => ?_
    rw [← hstep]
    exact Transcription.grid_times m el (List.mem_range.1 hel) m.roots
  · show b.y = _
    rw [hys]
    simp only [pointAt, hny]
    rfl
  · refine List.map_congr_left fun el hel => ?_
    rw [← hstep]
    exact Transcription.grid_times m el (List.mem_range.1 hel) _
  · exact R.controls_shown hr hb.toSharedShape
  · show finalCostState q.xCost q.model.x (withFinal b).x = _
    rw [R.final_cost _ _ _ (by rw [hfinal]; exact List.getLast?_concat ..) rfl (by simp)]
    simp

/-! ### The call of the solver -/

omit [IsStrictOrderedRing K] in
/-- The call of the solver: constraints and objective are those of the prepared problem with the data
of the user. -/
theorem call_ok {P : Program K} (hP : Builds ops opts names o q P) {x0 p l : List K}
    {theta : List (List K)} (hd : DataFits o (Spec.mesh opts) x0 p theta)
    (hic : opts.initialConditionAsParameter = true)
    (hl : l.length = if (setup (K := K) opts q).lastControlAsParameter then o.model.u.length else 0)
    (c : CallArgs K) (hc : c.par = p ++ (thetaOf opts theta).flatten ++ (x0 ++ [0]) ++ l) :
    ∃ call, P.call c = .ok call ∧ call.lb = P.nlp.xLb ∧ call.ub = P.nlp.xUb ∧
      ∀ v, call.value v = (Setting.built ops (Spec.mesh opts) q).discretize
        (readVars (valueIn P.nlp.x v) P.vars) (x0 ++ [0]) p (thetaOf opts theta)
        (some (if (setup (K := K) opts q).lastControlAsParameter then l else [])) := by
  obtain ⟨h₁, h₂, h₃, h₄, h₅⟩ := R.parameters_ok hd hic hl
  refine ⟨⟨P.evaluate c.par, P.nlp.xLb, P.nlp.xUb, c.initialGuess, c.lamX, c.lamG⟩, ?_, ?_⟩
  · unfold Program.call
    rw [if_neg (by rw [not_not, hc, hP.setup]; exact h₁), if_neg (by
      rw [not_not, hP.setup]
      unfold MethodSetup.freeSymbols
      rw [if_pos (R.hasParameters hic)])]
  · refine ⟨rfl, rfl, fun v => ?_⟩
    show P.evaluate c.par v = _
    unfold Program.evaluate Program.parameter
    rw [hP.setup, hP.transcription, hc, h₂, h₃, h₄]
    congr 1
    unfold Transcription.lastControlArgument
    congr 1
    by_cases h : (setup (K := K) opts q).lastControlAsParameter = true
    · rw [if_pos h, if_pos h, h₅ h]
    · rw [if_neg h, if_neg h]

omit [Field K] [LinearOrder K] [IsStrictOrderedRing K] R in
theorem dataFits_thetaOf {x0 p : List K} {theta : List (List K)}
    (hd : DataFits o (Spec.mesh opts) x0 p theta) : DataFits o (Spec.mesh opts) x0 p (thetaOf opts theta) :=
  ⟨hd.x0, hd.p, fun el hel => by
    have : el < opts.elements := hel
    have h := hd.theta el hel
    simpa [thetaOf, this] using h⟩

omit [LinearOrder K] [IsStrictOrderedRing K] R in
theorem reads_thetaOf {b : Blocks K} {x0 p : List K} {theta : List (List K)} {ρ : Nat → K → Sym → K}
    (h : ReadsAll o (Spec.mesh opts) b x0 p theta ρ) :
    ReadsAll o (Spec.mesh opts) b x0 p (thetaOf opts theta) ρ := by
  intro el hel tau
  have hel' : el < opts.elements := hel
  have hr := h el hel tau
  refine ⟨⟨hr.time, hr.position, hr.controls, hr.parameters, hr.optimised, fun i s hi hs => ?_,
    hr.optimisedThetas, hr.starts, hr.etas⟩, hr.states, hr.algebraics⟩
  rw [hr.thetas i s hi hs]
  simp [thetaOf, hel']

/-- A decision vector is feasible exactly when it is a decision of the user's problem; the objective is
the user's cost. -/
theorem feasible_iff {P : Program K} (hP : Builds ops opts names o q P) {x0 p : List K}
    {theta : List (List K)} (hd : DataFits o (Spec.mesh opts) x0 p theta) {call : SolverCall K}
    (hlb : call.lb = P.nlp.xLb) (hub : call.ub = P.nlp.xUb) {arg L : Option (List K)}
    (hval : ∀ v, call.value v = (Setting.built ops (Spec.mesh opts) q).discretize
      (readVars (valueIn P.nlp.x v) P.vars) (x0 ++ [0]) p (thetaOf opts theta) arg)
    (hl : LimitsFit o L) (ha : arg = L ∨ NoRateLimits o) {b : Blocks K}
    (hb : CollocationData (directDims o (Spec.mesh opts)) b) {ρ : Nat → K → Sym → K}
    (hρ : ReadsAll o (Spec.mesh opts) b x0 p theta ρ) :
    (CallFeasible ops call (stacked b) ↔ Decision ops o (Spec.mesh opts) x0 p theta L b ρ) ∧
      ∃ cons, call.value (stacked b) = .ok (cons, directCost ops o (Spec.mesh opts) b ρ) := by
  have hread : readVars (valueIn P.nlp.x (stacked b)) P.vars = b := by
    rw [hP.x, hP.vars]
    exact readVars_stacked R.mesh.elements R.newVars hb
  obtain ⟨cons, h₁, h₂⟩ := R.value_iff ops hb (dataFits_thetaOf hd) (reads_thetaOf hρ) hl ha
  have hv : call.value (stacked b) = .ok (cons, directCost ops o (Spec.mesh opts) b ρ) := by
    rw [hval, hread, h₁]
  have hbounds := bounds_iff ops hb R.varBounds_eq (fits_cost _ R.bounds.x) R.bounds.y R.bounds.u
    R.bounds.pOpt R.bounds.thetaOpt
  have hsize : (stacked b).length = call.lb.length := by
    rw [hlb, hP.lb]
    exact (lower_length hb R.varBounds_eq (fits_cost _ R.bounds.x) R.bounds.y R.bounds.u R.bounds.pOpt
      R.bounds.thetaOpt).symm
  refine ⟨⟨fun h => ?_, fun h => ?_⟩, cons, hv⟩
  · have hbd := hbounds.mp (fun i a l u hi hl hu => h.bounds i a l u hi (by rw [hlb, hP.lb]; exact hl)
      (by rw [hub, hP.ub]; exact hu))
    obtain ⟨hx, hy, hu, hp, ht⟩ := hbd
    refine ⟨hb, hρ, ⟨hx, hy, hu, hp, ht⟩, h₂.mp ?_⟩
    obtain ⟨cons', f, hc, hh⟩ := h.constraints
    rw [hv] at hc
    simp only [Except.ok.injEq, Prod.mk.injEq] at hc
    rw [hc.1]
    exact hh
  · refine ⟨hsize, fun i a l u hi hl hu => ?_, cons, _, hv, h₂.mpr h.solution⟩
    exact hbounds.mpr ⟨h.bounds.x, h.bounds.y, h.bounds.u, h.bounds.pOpt, h.bounds.thetaOpt⟩ i a l u hi
      (by rw [hlb, hP.lb] at hl; exact hl) (by rw [hub, hP.ub] at hu; exact hu)

end Run
end Program
end
section Solve
variable [LinearOrder K] [IsStrictOrderedRing K]
variable {opts : Options} {names : NewNames} {s : Method}

omit [IsStrictOrderedRing K] in
/-- The first call prepares the problem. -/
theorem prepares (hc : s.hasCostState = false) (hp : s.prepared = false)
    (h : (prepare opts.controlRoots opts.controlRoots.length names.xc names.fresh names.base s).1 = .ok ())
    (hw : Declared K opts names s.problem) :
    ∃ m S, Run opts names s.problem m.problem S ∧ onMethod (K := K) (solvePreparation opts.controlRoots
      opts.controlRoots.length names.xc names.fresh names.base) ⟨s, none⟩ = (.ok (), ⟨m, none⟩) := by
  have h' : prepare opts.controlRoots opts.controlRoots.length names.xc names.fresh names.base s =
      (.ok (), (prepare opts.controlRoots opts.controlRoots.length names.xc names.fresh names.base s).2) :=
    Prod.ext h rfl
  generalize (prepare opts.controlRoots opts.controlRoots.length names.xc names.fresh names.base s).2 = s'
    at h'
  obtain ⟨S, hS⟩ := prepared_of hc h' hw.new hw.problem.complete
  have hk := kept_of hc h'
  refine ⟨{ s' with prepared := true }, S, ⟨⟨hw.mesh.toControlMesh, hw.problem, hw.scope, hw.new,
    hS, hk, hw.symbols, hw.bounds, hw.controls⟩, hw.mesh, hw.newVars⟩, ?_⟩
  unfold onMethod solvePreparation
  simp only [hp, Bool.false_eq_true, if_false]
  unfold prepareAndMark
  simp only [Py.bind_eq]
  rw [Py.bind_ok h']
  rfl

/-- The first call creates the program. -/
theorem created (ops : Expr.Ops K) (hc : s.hasCostState = false) (hp : s.prepared = false)
    (h : (prepare opts.controlRoots opts.controlRoots.length names.xc names.fresh names.base s).1 = .ok ())
    (hw : WellPosed K opts names s.problem) :
    ∃ m S P, Run opts names s.problem m.problem S ∧ Run.Builds ops opts names s.problem m.problem P ∧
      createProgram ops opts names ⟨s, none⟩ = (.ok P, (⟨m, some P⟩ : State K)) := by
  obtain ⟨m, S, R, h₁⟩ := prepares hc hp h hw.toDeclared
  obtain ⟨P, hP, hB⟩ := R.build_ok ops hw.limits hw.last
  refine ⟨m, S, P, R, hB, ?_⟩
  unfold createProgram
  simp only [Py.bind_eq]
  rw [Py.bind_ok h₁]
  simp only [Py.get_bind]
  rw [hP]
  rfl


omit [IsStrictOrderedRing K] in
/-- What `solve` does once there is a program. -/
theorem solve_eq {ops : Expr.Ops K} {sim info : List K → Theta K → Except Err (List K)}
    {solver : SolverCall K → Except Err (RawSolution K)} {a : SolveArgs K} {st : State K} {m : Method}
    {P : Program K} (h : program ops opts names st = (.ok P, ⟨m, some P⟩)) :
    solve ops opts names sim info solver a st =
      ((do
        let c ← (setup opts m.problem).callArgs sim info a
        let call ← P.call c
        let raw ← solver call
        result ops opts m.problem P c raw), ⟨m, some P⟩) := by
  unfold solve
  simp only [Py.bind_eq]
  rw [Py.bind_ok h]
  simp only [Py.get_bind]
  cases h₁ : (setup opts m.problem).callArgs sim info a with
  | error e => rfl
  | ok c =>
    rw [Py.lift_ok_bind]
    simp only [bind, Except.bind]
    cases h₂ : P.call c with
    | error e => rfl
    | ok call =>
      rw [Py.lift_ok_bind]
      simp only
      cases h₃ : solver call with
      | error e => rfl
      | ok raw => rfl

/-- A call of `solve`, with what the solver is called with. -/
theorem solve_answered (ops : Expr.Ops K) (sim info : List K → Theta K → Except Err (List K))
    (solver : SolverCall K → Except Err (RawSolution K)) (a : SolveArgs K) (x0 p : List K)
    (theta : List (List K)) (hc : s.hasCostState = false) (hp : s.prepared = false)
    (h : (prepare opts.controlRoots opts.controlRoots.length names.xc names.fresh names.base s).1 = .ok ())
    (hw : WellPosed K opts names s.problem) (hd : DataFits s.problem (Spec.mesh opts) x0 p theta)
    (ha : ArgsFit s.problem opts a sim info x0 p theta) (hs : ∀ c, ∃ raw, solver c = .ok raw ∧ raw.x.length = c.lb.length) :
    ∃ r b call raw, (solve ops opts names sim info solver a ⟨s, none⟩).1 = .ok r ∧
      CollocationData (directDims s.problem (Spec.mesh opts)) b ∧ r.report.raw = stacked b ∧
      Shows s.problem (Spec.mesh opts) b r.report ∧ r.x0 = x0 ++ [0] ∧
      r.xCFinal = some [(statePoly (Spec.mesh opts) b (opts.elements - 1) s.problem.model.x.length).eval 1] ∧
      solver call = .ok raw ∧ raw.x = stacked b ∧ r.report.success = raw.success ∧
      r.report.objective = raw.f ∧
      (∀ b', CollocationData (directDims s.problem (Spec.mesh opts)) b' → ∀ ρ,
        ReadsAll s.problem (Spec.mesh opts) b' x0 p theta ρ →
        (CallFeasible ops call (stacked b') ↔
          Decision ops s.problem (Spec.mesh opts) x0 p theta (lastOf s.problem) b' ρ) ∧
        ∃ cons, call.value (stacked b') = .ok (cons, directCost ops s.problem (Spec.mesh opts) b' ρ)) ∧
      (∀ v : List K, v.length = call.lb.length → ∃ b' : Blocks K,
        CollocationData (directDims s.problem (Spec.mesh opts)) b' ∧
        stacked b' = v) ∧
      ∀ b' : Blocks K, ∃ ρ, ReadsAll s.problem (Spec.mesh opts) b' x0 p theta ρ := by
  obtain ⟨m, S, P, R, hP, hcr⟩ := created ops hc hp h hw
  obtain ⟨l, lu, hl, hlast, hno⟩ := R.last_of (K := K) hw.last ha.lastU
  obtain ⟨c, hca, hcx, hcp, hcpar, hcth⟩ := R.args_ok hd ha hl hw.initial
  rw [show { a with lastU := a.lastU } = a from rfl] at hca
  have hllen : (if (setup (K := K) opts m.problem).lastControlAsParameter then l else []).length =
      if (setup (K := K) opts m.problem).lastControlAsParameter then s.problem.model.u.length else 0 := by
    by_cases hb : (setup (K := K) opts m.problem).lastControlAsParameter = true
    · rw [if_pos hb, if_pos hb]
      exact hw.limits.last l (by rw [hlast, if_pos hb])
    · rw [if_neg hb, if_neg hb]
      rfl
  obtain ⟨call, hcall, hlb, hub, hval⟩ := R.call_ok hP hd hw.initial hllen c hcpar
  obtain ⟨raw, hraw, hsize⟩ := hs call
  have hd₀ : CollocationData (directDims s.problem (Spec.mesh opts))
      (readVars (valueIn P.nlp.x raw.x) P.vars) := by
    rw [hP.vars]
    exact data_readVars R.newVars.toSymSizes _
  set b := readVars (valueIn P.nlp.x raw.x) P.vars with hb
  have hread : ∀ v : List K, v.length = call.lb.length →
      stacked (readVars (valueIn P.nlp.x v) P.vars) = v := by
    intro v hv
    have hdv : CollocationData (directDims s.problem (Spec.mesh opts))
        (readVars (valueIn P.nlp.x v) P.vars) := by
      rw [hP.vars]
      exact data_readVars R.newVars.toSymSizes _
    rw [hP.vars, hP.x]
    refine stacked_readVars R.newVars _ ?_
    rw [hv, hlb, hP.lb, ← stacked_data_length R.newVars.toSymSizes hdv]
    exact lower_length hdv R.varBounds_eq (fits_cost _ R.bounds.x) R.bounds.y R.bounds.u R.bounds.pOpt
      R.bounds.thetaOpt
  have hstack : stacked b = raw.x := hread _ hsize
  obtain ⟨rep, hrep, hshow, hrr, hro, hrs, hfin⟩ := R.report_shows ops hw.controlRoots hd₀ c.p
    ((List.range opts.elements).map fun el => (c.theta.get? el).getD []) raw hstack.symm
  have harg : (some (if (setup (K := K) opts m.problem).lastControlAsParameter then
      (if (setup (K := K) opts m.problem).lastControlAsParameter then l else []) else [])) =
      lastOf s.problem ∨ NoRateLimits s.problem := by
    by_cases hb : (setup (K := K) opts m.problem).lastControlAsParameter = true
    · left
      rw [hlast, if_pos hb, if_pos hb, if_pos hb]
    · exact .inr (hno (by simpa using hb))
  refine ⟨⟨rep, _, c.x0⟩, b, call, raw, ?_, hd₀, by rw [hrr, hstack], hshow, hcx, rfl, hraw, hstack.symm, hrs,
    hro, fun b' hb' ρ hρ => R.feasible_iff hP hd hlb hub hval hw.limits harg hb' hρ, fun v hv =>
    ⟨_, ?_, hread v hv⟩, fun b' => R.readsAll b' x0 p theta⟩
  · rw [solve_eq (m := m) (P := P) (by unfold program; exact hcr)]
    simp only [hca, hcall, hraw, bind, Except.bind]
    unfold result
    rw [hP.transcription]
    simp only [hrep, hfin, bind, Except.bind]
  · rw [hP.vars]
    exact data_readVars R.newVars.toSymSizes _

theorem solve_core (ops : Expr.Ops K) (sim info : List K → Theta K → Except Err (List K))
    (solver : SolverCall K → Except Err (RawSolution K)) (a : SolveArgs K) (x0 p : List K)
    (theta : List (List K)) (hc : s.hasCostState = false) (hp : s.prepared = false)
    (h : (prepare opts.controlRoots opts.controlRoots.length names.xc names.fresh names.base s).1 = .ok ())
    (hw : WellPosed K opts names s.problem) (hd : DataFits s.problem (Spec.mesh opts) x0 p theta)
    (ha : ArgsFit s.problem opts a sim info x0 p theta) (hs : GoodSolver ops solver) :
    ∃ r b call raw, (solve ops opts names sim info solver a ⟨s, none⟩).1 = .ok r ∧
      CollocationData (directDims s.problem (Spec.mesh opts)) b ∧ r.report.raw = stacked b ∧
      Shows s.problem (Spec.mesh opts) b r.report ∧ r.x0 = x0 ++ [0] ∧
      r.xCFinal = some [(statePoly (Spec.mesh opts) b (opts.elements - 1) s.problem.model.x.length).eval 1] ∧
      solver call = .ok raw ∧ raw.x = stacked b ∧ r.report.success = raw.success ∧
      r.report.objective = raw.f ∧
      (∀ b', CollocationData (directDims s.problem (Spec.mesh opts)) b' → ∀ ρ,
        ReadsAll s.problem (Spec.mesh opts) b' x0 p theta ρ →
        (CallFeasible ops call (stacked b') ↔
          Decision ops s.problem (Spec.mesh opts) x0 p theta (lastOf s.problem) b' ρ) ∧
        ∃ cons, call.value (stacked b') = .ok (cons, directCost ops s.problem (Spec.mesh opts) b' ρ)) ∧
      (∀ v : List K, v.length = call.lb.length → ∃ b' : Blocks K,
        CollocationData (directDims s.problem (Spec.mesh opts)) b' ∧
        stacked b' = v) ∧
      ∀ b' : Blocks K, ∃ ρ, ReadsAll s.problem (Spec.mesh opts) b' x0 p theta ρ :=
  solve_answered ops sim info solver a x0 p theta hc hp h hw hd ha fun c =>
    (hs c).imp fun _ h => ⟨h.1, h.2.1⟩

end Solve
end SolveDirect
end Verif
