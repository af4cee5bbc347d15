import Verif.Lemmas.Transcribe
import Verif.Props.OcpIndices
import Verif.Lemmas.Merge
/-! Lemmas on the functions of the prepared problem of a direct method, in terms of the problem of the
user; for collocation and multiple shooting. -/
namespace Verif
open Spec

namespace Ocp

/-- The transcription when all symbols are inputs. -/
def transcriptionOf {K : Type} [Field K] (ops : Expr.Ops K) (o : Ocp) (roots : List Rat)
    (N degree degreeControl : Nat) : Transcription K :=
  let f := o.functionsOf N
  { dims := o.dims N degree degreeControl
    roots := roots.map (Rat.cast : Rat → K)
    t0 := (o.t0 : K)
    tf := (o.tf : K)
    ode := fun el pt => (funAt (f.dae.map Prod.fst) el).callAt ops pt
    alg := fun el pt => (funAt (f.dae.map Prod.snd) el).callAt ops pt
    sCost := fun el pt => scalar ((funAt f.sCost el).callAt ops pt)
    gIneq := pathCons ops f.gIneq o.timeGIneq
    gEq := pathCons ops f.gEq o.timeGEq
    hInitial := fun x x0 => f.initial.call ops [x, x0]
    hFinal := fun x eta p => f.final.call ops [x, eta, p]
    h := fun p => f.timeless.call ops [p]
    vCost := fun x p => scalar (f.vCost.call ops [x, p])
    duMin := o.duMin.map boundValue
    duMax := o.duMax.map boundValue
    pOptIndices := o.pOptIndices
    thetaOptIndices := o.thetaOptIndices }

theorem transcription_ok_iff {K : Type} [Field K] (ops : Expr.Ops K) (o : Ocp) (roots : List Rat)
    (N degree degreeControl : Nat) (hN : 0 < N) (m : Transcription K) :
    o.transcription ops roots N degree degreeControl = .ok m ↔
      FunctionScope o ∧ m = o.transcriptionOf ops roots N degree degreeControl := by
  unfold transcription
  simp only [bind, bind_ok_iff, functions_ok hN, Except.ok.injEq]
  constructor
  · rintro ⟨_, ⟨h, rfl⟩, rfl⟩; exact ⟨h, rfl⟩
  · rintro ⟨h, rfl⟩; exact ⟨_, ⟨h, rfl⟩, rfl⟩

theorem functions_error {o : Ocp} {N : Nat} {e : Err} (h : o.functions N = .error e) :
    e = .runtimeError := by
  have hb : ∀ {α β : Type} {x : Except Err α} {f : α → Except Err β} {e : Err},
      x.bind f = .error e → x = .error e ∨ ∃ a, x = .ok a ∧ f a = .error e := by
    intro α β x f e h
    cases x with
    | error e' => left; cases h; rfl
    | ok a => exact .inr ⟨a, rfl, h⟩
  have hd : ∀ el e, o.daeFunctions N el = .error e → e = .runtimeError := by
    intro el e h
    unfold daeFunctions at h
    rcases hb h with h | ⟨_, -, h⟩
    · simp [Dae.convertFromTau, SysModel.getDae] at h
    · rcases hb h with h | ⟨_, -, h⟩
      · exact Fun.make_error h
      · rcases hb h with h | ⟨_, -, h⟩
        · exact Fun.make_error h
        · cases h
  have he : ∀ x e, o.elementFunctions N x = .error e → e = .runtimeError := fun x e h =>
    mapM_only_error (fun _ _ h => Fun.make_error h) _ _ h
  unfold functions at h
  rcases hb h with h | ⟨_, -, h⟩
  · exact Fun.make_error h
  rcases hb h with h | ⟨_, -, h⟩
  · exact mapM_only_error hd _ _ h
  rcases hb h with h | ⟨_, -, h⟩
  · exact mapM_only_error he _ _ h
  rcases hb h with h | ⟨_, -, h⟩
  · exact mapM_only_error he _ _ h
  rcases hb h with h | ⟨_, -, h⟩
  · exact he _ _ h
  rcases hb h with h | ⟨_, -, h⟩
  · exact Fun.make_error h
  rcases hb h with h | ⟨_, -, h⟩
  · exact Fun.make_error h
  rcases hb h with h | ⟨_, -, h⟩
  · exact Fun.make_error h
  · cases h

end Ocp

/-! ## Values of the functions of a problem -/

section Values
variable {K : Type} [Field K] (ops : Expr.Ops K) (q : Ocp) (roots : List Rat) (N d dc : Nat)

/-- The values of all inputs of the functions along the path. -/
def AgreesAt (q : Ocp) (pt : Point K) (ρ : Sym → K) : Prop :=
  Agrees q.model.allSym.flatten [[pt.t], pt.x, pt.y, pt.p, pt.theta, pt.uPar].flatten ρ

theorem funAt_range (g : Nat → Fun) (el : Nat) (h : el < N) :
    Ocp.funAt ((List.range N).map g) el = g el := by
  simp [Ocp.funAt, List.getD_eq_getElem?_getD, h]

theorem call_inTime [CharZero K] (hN : 0 < N) (ht : q.t0 < q.tf) (el : Nat) (es : List Expr)
    (hs : ∀ e ∈ es, ∀ s ∈ e.syms, InScope q.model s) (pt : Point K) (ρ : Sym → K)
    (ha : AgreesAt q pt ρ) (tau : K)
    (h₁ : ρ q.model.t = ((q.tf : K) - (q.t0 : K)) / (N : K) * ((el : K) + tau))
    (h₂ : ρ q.model.tau = tau) :
    (Fun.mk q.model.allSym (es.map (q.inTime N el))).callAt ops pt = es.map (Expr.eval ops ρ) := by
  unfold Fun.callAt
  rw [call_eq ops ⟨q.model.allSym, es.map (q.inTime N el)⟩
    [[pt.t], pt.x, pt.y, pt.p, pt.theta, pt.uPar] ρ ?_ ha]
  · rw [List.map_map]
    exact List.map_congr_left fun e _ => eval_inTime ops q N el hN ht ρ tau h₁ h₂ e
  · simp only [List.forall_mem_map]
    exact fun e he => (convert_closed q.model e _ _).mpr (hs e he)

end Values

/-! ## The prepared problem of a direct method -/

theorem complete_get {k : SysModel} (h : Complete k) (i : Nat) (s : Sym) (e : Expr)
    (hs : k.x[i]? = some s) : k.ode.get? s = some (some e) ↔ k.odeVec[i]? = some e := by
  have hz := complete_zip k h
  have hl := complete_length k h
  have hi : i < k.x.length := (List.getElem?_eq_some_iff.mp hs).1
  have hget : k.ode.get? s = some (some (k.odeVec[i]'(by omega))) := by
    refine Dict.get?_of_getElem k.ode (by rw [h.1]; exact h.2.1) i s _ ?_
    obtain ⟨_, rfl⟩ := List.getElem?_eq_some_iff.mp hs
    conv_lhs => rw [← hz]
    rw [List.getElem?_eq_getElem (by simp; omega)]
    simp
  rw [hget, List.getElem?_eq_getElem (by omega)]
  simp

/-- Blocks of different symbols can be given any values. -/
theorem exists_assignment {K : Type} [Zero K] (bs : List (List Sym × (Nat → K)))
    (h : (bs.flatMap Prod.fst).Nodup) :
    ∃ ρ : Sym → K, ∀ c ∈ bs, ∀ (i : Nat) (s : Sym), c.1[i]? = some s → ρ s = c.2 i := by
  induction bs with
  | nil => exact ⟨fun _ => 0, by simp⟩
  | cons c bs ih =>
    rw [List.flatMap_cons, List.nodup_append] at h
    obtain ⟨hc, hb, hd⟩ := h
    obtain ⟨ρ, hρ⟩ := ih hb
    refine ⟨fun s => if s ∈ c.1 then c.2 (c.1.idxOf s) else ρ s, ?_⟩
    intro d hm i s hs
    rcases List.mem_cons.mp hm with rfl | hm
    · simp only [List.mem_of_getElem? hs, if_true]
      obtain ⟨hi, rfl⟩ := List.getElem?_eq_some_iff.mp hs
      rw [hc.idxOf_getElem i hi]
    · have hs' : s ∉ c.1 := fun h' =>
        hd s h' s (List.mem_flatMap.mpr ⟨d, hm, List.mem_of_getElem? hs⟩) rfl
      simp only [hs', if_false]
      exact hρ d hm i s hs

namespace Direct

/-- The parameters, with the optimised ones put in. -/
def fullP {K : Type} (o : Ocp) (b : Blocks K) (p : List K) : List K :=
  Ocp.putValues (findIndices o.pOpt o.model.p) b.pOpt p

/-- The parameters of an element, with the optimised ones put in. -/
def fullTheta {K : Type} (o : Ocp) (b : Blocks K) (theta : List (List K)) (el : Nat) : List K :=
  Ocp.putValues (findIndices o.thetaOpt o.model.theta) (b.thetaOpt.getD el []) (theta.getD el [])

theorem boundValue_mono {K : Type} [Field K] [LinearOrder K] [IsStrictOrderedRing K]
    {lo hi : XRat} (h : lo ≤ hi) :
    (Ocp.boundValue lo : WithBot (WithTop K)) ≤ Ocp.boundValue hi := by
  match lo, hi, h with
  | none, _, _ => exact bot_le
  | some none, none, h => exact absurd h (by exact WithBot.not_coe_le_bot _)
  | some (some _), none, h => exact absurd h (by exact WithBot.not_coe_le_bot _)
  | some _, some none, _ =>
    show _ ≤ ((⊤ : WithTop K) : WithBot (WithTop K))
    exact le_top
  | some none, some (some r), h =>
    exact absurd (WithBot.coe_le_coe.mp h) (by exact WithTop.not_top_le_coe _)
  | some (some l), some (some r), h =>
    have : l ≤ r := WithTop.coe_le_coe.mp (WithBot.coe_le_coe.mp h)
    show (((l : K) : WithTop K) : WithBot (WithTop K)) ≤ (((r : K) : WithTop K) : WithBot (WithTop K))
    exact WithBot.coe_le_coe.mpr (WithTop.coe_le_coe.mpr (by exact_mod_cast this))

/-- What both schemes have in common. -/
structure Common {K : Type} [Field K] [LinearOrder K] (M : Mesh) (o q : Ocp) (xc fresh base : Sym)
    (S : Expr → Expr) (b : Blocks K) (x0 p : List K) (theta : List (List K)) : Prop where
  controlMesh : ControlMesh M
  problem : DirectProblem o
  scope : DirectScope o
  new : NewSymbols o xc fresh base
  prepared : Prepared M.controlRoots xc fresh base o q S
  shared : SharedShape (directDims o M) b
  data : DataFits o M x0 p theta

namespace Common

variable {K : Type} [Field K] [LinearOrder K] {M : Mesh} {o q : Ocp} {xc fresh base : Sym}
  {S : Expr → Expr} {b : Blocks K} {x0 p : List K} {theta : List (List K)}
  (C : Common M o q xc fresh base S b x0 p theta)
include C

theorem dims_eq : q.dims M.elements M.roots.length M.controlRoots.length = directDims o M := by
  obtain ⟨h₁, h₂, h₃, h₄, h₅, h₆, h₇, h₈, h₉⟩ := C.prepared.symbols
  obtain ⟨g₁, g₂, g₃⟩ := C.prepared.others
  simp [Ocp.dims, directDims, h₃, h₅, h₈, h₉, g₁, g₂, g₃, newSyms]

/-- Expressions without controls are not changed. -/
theorem subst_self (e : Expr) (h : ∀ s ∈ e.syms, s ∉ o.model.u) : S e = e := by
  rw [C.prepared.subst]
  exact Expr.subst_eq_self _ _ _ fun s hs he => h s he hs

theorem control_apart (s : Sym) (h : s ∈ [o.model.t, o.model.tau] ++ o.model.x ++ o.model.y ++
    o.model.p ++ o.model.theta ++ o.model.x0 ++ o.eta) : s ∉ o.model.u :=
  fun hs => C.problem.apart s hs h

theorem xc_not_control : xc ∉ o.model.u := fun h => C.new.costState (by simp [problemSymbols, h])

theorem fresh_not_control : fresh ∉ o.model.u := fun h => C.new.initial (by simp [problemSymbols, h])

theorem initial_eq : q.hInitial = o.hInitial ++ [Expr.sub (.sym fresh) (.sym xc)] := by
  rw [C.prepared.initial]
  conv_rhs => rw [← List.map_id (o.hInitial ++ _)]
  refine List.map_congr_left fun e he => C.subst_self e fun s hs => ?_
  rcases List.mem_append.mp he with he | he
  · have := C.scope.initial e he s hs
    exact C.control_apart s (by simp at this ⊢; tauto)
  · simp only [List.mem_singleton] at he
    subst he
    simp only [Expr.syms, List.cons_append, List.nil_append, List.mem_cons, List.not_mem_nil,
      or_false] at hs
    rcases hs with rfl | rfl
    · exact C.fresh_not_control
    · exact C.xc_not_control

theorem final_eq : q.hFinal = o.hFinal := by
  rw [C.prepared.final]
  conv_rhs => rw [← List.map_id o.hFinal]
  refine List.map_congr_left fun e he => C.subst_self e fun s hs => ?_
  have := C.scope.final e he s hs
  exact C.control_apart s (by simp at this ⊢; tauto)

theorem timeless_eq : q.h = o.h := by
  rw [C.prepared.timeless]
  conv_rhs => rw [← List.map_id o.h]
  refine List.map_congr_left fun e he => C.subst_self e fun s hs => ?_
  have := C.scope.timeless e he s hs
  exact C.control_apart s (by simp [this])

theorem vCost_eq : q.V = Expr.add o.V (.sym xc) := by
  rw [C.prepared.vCost]
  refine C.subst_self _ fun s hs => ?_
  simp only [Expr.syms, List.mem_append, List.mem_singleton] at hs
  rcases hs with hs | rfl
  · have := C.scope.cost s hs
    exact C.control_apart s (by simp at this ⊢; tauto)
  · exact C.xc_not_control

/-- The symbols of a path expression after the preparation. -/
theorem path_scope (e : Expr) (he : e ∈ alongPath o) (s : Sym) (hs : s ∈ (S e).syms) :
    InScope q.model s := by
  obtain ⟨h₁, h₂, h₃, h₄, h₅, h₆, h₇, h₈, h₉⟩ := C.prepared.symbols
  rw [C.prepared.subst] at hs
  rcases Expr.mem_syms_subst _ _ (polynomials_length ..).symm e s hs with ⟨hse, hu⟩ | ⟨r, hr, hs⟩
  · have := C.scope.path e he s hse
    simp only [List.mem_append, List.mem_cons, List.not_mem_nil, or_false] at this
    unfold InScope
    rw [h₁, h₂, h₃, h₅, h₆, h₇, List.mem_append]
    tauto
  · rcases syms_polynomials _ _ _ _ _ (fun _ => rfl) r hr s hs with rfl | h
    · exact .inr (.inl h₂.symm)
    · unfold InScope
      rw [h₉]
      tauto

theorem algOf_eq : q.algOf = o.model.alg.map S := by
  unfold Ocp.algOf
  rw [C.prepared.symbols.2.2.2.2.1, C.prepared.alg]
  split
  · next h => rw [C.problem.equations h]; rfl
  · rfl

theorem function_scope : FunctionScope q := by
  obtain ⟨h₁, h₂, h₃, h₄, h₅, h₆, h₇, h₈, h₉⟩ := C.prepared.symbols
  refine ⟨?_, ?_, ?_, ?_, ?_⟩
  · have ha : (if q.model.y = [] then [] else q.model.alg) = o.model.alg.map S := C.algOf_eq
    rw [ha, C.prepared.ode, C.prepared.path.1, C.prepared.path.2, C.prepared.sCost]
    intro e he s hs
    simp only [List.mem_append, List.mem_map, List.mem_singleton] at he
    have key : ∃ e' ∈ alongPath o, S e' = e := by
      unfold alongPath
      simp only [List.mem_append, List.mem_cons, List.not_mem_nil, or_false]
      rcases he with (((⟨a, h | rfl, rfl⟩ | ⟨a, h, rfl⟩) | ⟨a, h, rfl⟩) | ⟨a, h, rfl⟩) | rfl
      · exact ⟨a, by tauto, rfl⟩
      · exact ⟨_, by tauto, rfl⟩
      · exact ⟨a, by tauto, rfl⟩
      · exact ⟨a, by tauto, rfl⟩
      · exact ⟨a, by tauto, rfl⟩
      · exact ⟨_, by tauto, rfl⟩
    obtain ⟨e', h, rfl⟩ := key
    exact C.path_scope e' h s hs
  · rw [C.initial_eq, h₃, h₄]
    intro e he s hs
    rcases List.mem_append.mp he with he | he
    · have := C.scope.initial e he s hs
      simp at this ⊢; tauto
    · simp only [List.mem_singleton] at he
      subst he
      simp [Expr.syms] at hs ⊢
      tauto
  · rw [C.final_eq, h₃, h₆, C.prepared.others.1]
    intro e he s hs
    have := C.scope.final e he s hs
    simp at this ⊢; tauto
  · rw [C.timeless_eq, h₆]
    exact C.scope.timeless
  · rw [C.vCost_eq, h₃, h₆]
    intro s hs
    simp only [Expr.syms, List.mem_append, List.mem_singleton] at hs
    rcases hs with hs | rfl
    · have := C.scope.cost s hs
      simp at this ⊢; tauto
    · simp

theorem control_columns (el : Nat) (hel : el < M.elements) (hu : o.model.u ≠ []) :
    Columns M.controlRoots.length o.model.u.length (b.u.getD el []) := by
  have hg := C.shared.u
  have hlen : (b.u).length = M.elements := hg.1
  have hm : b.u.getD el [] ∈ b.u := by
    rw [List.getD_eq_getElem?_getD, List.getElem?_eq_getElem (by omega)]
    exact List.getElem_mem _
  have := hg.2 _ hm
  have hp : 0 < o.model.u.length * M.controlRoots.length :=
    Nat.mul_pos (List.length_pos_iff.mpr hu) C.controlMesh.controls
  simpa [controlPoints, directDims, hp] using this

theorem control_flatten (el : Nat) (hel : el < M.elements) :
    (b.u.getD el []).flatten.length = o.model.u.length * M.controlRoots.length := by
  by_cases hu : o.model.u = []
  · have hg := C.shared.u
    have hlen : (b.u).length = M.elements := hg.1
    have hm : b.u.getD el [] ∈ b.u := by
      rw [List.getD_eq_getElem?_getD, List.getElem?_eq_getElem (by omega)]
      exact List.getElem_mem _
    have := (hg.2 _ hm).1
    simp only [controlPoints, directDims, hu, List.length_nil, Nat.zero_mul, lt_irrefl, if_false] at this
    rw [List.length_eq_zero_iff.mp this, hu]
    simp
  · exact flatten_size (C.control_columns el hel hu)

variable (ops : Expr.Ops K)

/-- The values of the symbols of the prepared problem, given those of the problem and the value of
the cost state. -/
def values (xc fresh base : Sym) (b : Blocks K) (el : Nat) (ρ : Sym → K) (c : K) : Sym → K :=
  extend ρ xc fresh base c (b.u.getD el []).flatten

/-- The point at which the functions of the prepared problem are evaluated. -/
def userPoint (o : Ocp) (M : Mesh) (b : Blocks K) (p : List K) (theta : List (List K)) (el : Nat)
    (tau : K) (ρ : Sym → K) (c : K) : Point K where
  t := stepLength o M * ((el : K) + tau)
  x := o.model.x.map ρ ++ [c]
  y := o.model.y.map ρ
  p := fullP o b p
  theta := fullTheta o b theta el
  uPar := (b.u.getD el []).flatten

theorem values_known (el : Nat) (ρ : Sym → K) (c : K) (s : Sym) (hs : s ∈ problemSymbols o) :
    values xc fresh base b el ρ c s = ρ s :=
  extend_known C.new _ _ _ _ hs

omit C [LinearOrder K] in
theorem values_cost (el : Nat) (ρ : Sym → K) (c : K) : values xc fresh base b el ρ c xc = c :=
  extend_cost _ _ _

theorem values_fresh (el : Nat) (ρ : Sym → K) (c : K) : values xc fresh base b el ρ c fresh = 0 :=
  extend_fresh C.new _ _ _

section Read
variable {el : Nat} (hel : el < M.elements) {tau : K} {ρ : Sym → K}
  (r : ReadsData o M b x0 p theta el tau ρ) (c : K)
include hel r

/-- The value of an expression of the user. -/
theorem eval_user (e : Expr) (he : ∀ s ∈ e.syms, s ∈ problemSymbols o) :
    (S e).eval ops (values xc fresh base b el ρ c) = e.eval ops ρ := by
  rw [C.prepared.subst]
  refine eval_prepared C.new _ _ ops M.controlRoots C.controlMesh.controls C.problem.controls _
    (C.control_columns el hel) ?_ e he
  intro i s hs
  rw [r.position]
  exact r.controls i s hs

omit hel r in
theorem states_agree : Agrees q.model.x (o.model.x.map ρ ++ [c]) (values xc fresh base b el ρ c) := by
  rw [C.prepared.symbols.2.2.1]
  refine Agrees.append (agrees_of_index (by simp) fun i s hs => ?_)
    (agrees_of_index rfl fun i s hs => ?_) (by simp)
  · rw [C.values_known el ρ c s (by simp [problemSymbols, List.mem_of_getElem? hs])]
    simp [List.getD_eq_getElem?_getD, hs]
  · match i, hs with
    | 0, hs =>
      simp only [List.getElem?_cons_zero, Option.some.injEq] at hs
      subst hs
      exact values_cost el ρ c

omit hel in
theorem parameters_agree : Agrees q.model.p (fullP o b p) (values xc fresh base b el ρ c) := by
  obtain ⟨hn, ho, hs⟩ := C.problem.parameters
  intro s hsp
  rw [C.prepared.symbols.2.2.2.2.2.1] at hsp ⊢
  rw [C.values_known el ρ c s (by simp [problemSymbols, hsp]), fullP,
    Ocp.lookup_put o.pOpt o.model.p b.pOpt p hn ho hs C.data.p C.shared.pOpt s hsp]
  split
  · next h =>
    exact agrees_of_index C.shared.pOpt r.optimised s h
  · next h =>
    have hi := List.idxOf_lt_length_of_mem hsp
    rw [lookup_zip _ _ C.data.p s hsp, List.getElem?_eq_getElem (by rw [C.data.p]; exact hi)]
    rw [r.parameters (o.model.p.idxOf s) s
      (by rw [List.getElem?_eq_getElem hi, List.getElem_idxOf]) h, List.getD_eq_getElem?_getD,
      List.getElem?_eq_getElem (by rw [C.data.p]; exact hi)]
    rfl

theorem thetas_agree : Agrees q.model.theta (fullTheta o b theta el) (values xc fresh base b el ρ c) := by
  obtain ⟨hn, ho, hs⟩ := C.problem.thetas
  intro s hsp
  rw [C.prepared.symbols.2.2.2.2.2.2.1] at hsp ⊢
  rw [C.values_known el ρ c s (by simp [problemSymbols, hsp])]
  have hv : (b.thetaOpt.getD el []).length = o.thetaOpt.length := by
    obtain ⟨hl, hc⟩ := C.shared.thetaOpt
    have hl : b.thetaOpt.length = M.elements := hl
    rw [List.getD_eq_getElem?_getD, List.getElem?_eq_getElem (by omega)]
    exact hc _ (List.getElem_mem _)
  have hp := C.data.theta el hel
  rw [fullTheta, Ocp.lookup_put o.thetaOpt o.model.theta _ _ hn ho hs hp hv s hsp]
  split
  · next h =>
    exact agrees_of_index hv r.optimisedThetas s h
  · next h =>
    have hi := List.idxOf_lt_length_of_mem hsp
    rw [lookup_zip _ _ hp s hsp, List.getElem?_eq_getElem (by rw [hp]; exact hi)]
    rw [r.thetas (o.model.theta.idxOf s) s
      (by rw [List.getElem?_eq_getElem hi, List.getElem_idxOf]) h,
      List.getD_eq_getElem?_getD (l := theta.getD el []),
      List.getElem?_eq_getElem (by rw [hp]; exact hi)]
    rfl

omit hel r in
theorem fullP_length : q.model.p.length = (fullP o b p).length := by
  rw [C.prepared.symbols.2.2.2.2.2.1, fullP, Ocp.putValues_length]
  exact C.data.p.symm

omit r in
theorem fullTheta_length : q.model.theta.length = (fullTheta o b theta el).length := by
  rw [C.prepared.symbols.2.2.2.2.2.2.1, fullTheta, Ocp.putValues_length]
  exact (C.data.theta el hel).symm

omit r in
theorem points_length : q.model.uPar.length = (b.u.getD el []).flatten.length := by
  rw [C.prepared.symbols.2.2.2.2.2.2.2.2, newSyms, List.length_map, List.length_range]
  exact (C.control_flatten el hel).symm

omit r in
theorem points_agree : Agrees q.model.uPar (b.u.getD el []).flatten (values xc fresh base b el ρ c) := by
  refine agrees_of_index (C.points_length hel).symm fun i s hs => ?_
  rw [C.prepared.symbols.2.2.2.2.2.2.2.2] at hs
  have hi := (List.getElem?_eq_some_iff.mp hs).1
  simp only [newSyms, List.length_map, List.length_range] at hi
  simp only [newSyms, List.getElem?_map, List.getElem?_range hi, Option.map_some,
    Option.some.injEq] at hs
  subst hs
  exact extend_point C.new _ _ _ i

omit hel r in
theorem algebraics_agree : Agrees q.model.y (o.model.y.map ρ) (values xc fresh base b el ρ c) := by
  rw [C.prepared.symbols.2.2.2.2.1]
  refine agrees_of_index (by simp) fun i s hs => ?_
  rw [C.values_known el ρ c s (by simp [problemSymbols, List.mem_of_getElem? hs])]
  simp [List.getD_eq_getElem?_getD, hs]

omit hel in
theorem time_value : values xc fresh base b el ρ c q.model.t = stepLength o M * ((el : K) + tau) := by
  rw [C.prepared.symbols.1, C.values_known el ρ c _ (by simp [problemSymbols]), r.time]

omit hel in
theorem position_value : values xc fresh base b el ρ c q.model.tau = tau := by
  rw [C.prepared.symbols.2.1, C.values_known el ρ c _ (by simp [problemSymbols]), r.position]

theorem point_agrees :
    AgreesAt q (userPoint o M b p theta el tau ρ c) (values xc fresh base b el ρ c) := by
  obtain ⟨h₁, h₂, h₃, h₄, h₅, h₆, h₇, h₈, h₉⟩ := C.prepared.symbols
  show Agrees ([q.model.t] ++ (q.model.x ++ (q.model.y ++ (q.model.p ++ (q.model.theta ++
    (q.model.uPar ++ [])))))) _ _
  refine Agrees.append (a₁ := [_]) ?_ (Agrees.append (C.states_agree c) (Agrees.append
    (C.algebraics_agree c) (Agrees.append (C.parameters_agree r c) (Agrees.append
    (C.thetas_agree hel r c) (Agrees.append (C.points_agree hel c) (fun s hs => by simp at hs)
    (C.points_length hel)) (C.fullTheta_length hel)) C.fullP_length) ?_) ?_) rfl
  · refine agrees_of_index rfl fun i s hs => ?_
    match i, hs with
    | 0, hs =>
      simp only [List.getElem?_cons_zero, Option.some.injEq] at hs
      subst hs
      exact C.time_value r c
  · simp [userPoint, h₅]
  · simp [userPoint, h₃]

variable [IsStrictOrderedRing K]

theorem path_values (es : List Expr) (hs : ∀ e ∈ es, e ∈ alongPath o) :
    (Fun.mk q.model.allSym ((es.map S).map (q.inTime M.elements el))).callAt ops
      (userPoint o M b p theta el tau ρ c) = es.map (Expr.eval ops ρ) := by
  rw [call_inTime ops q M.elements C.controlMesh.elements
    (by rw [C.prepared.times.1, C.prepared.times.2]; exact C.problem.horizon) el (es.map S) ?_ _ _
    (C.point_agrees hel r c) tau ?_ ?_]
  · rw [List.map_map]
    refine List.map_congr_left fun e he => ?_
    refine C.eval_user ops hel r c e fun s hse => ?_
    have := C.scope.path e (hs e he) s hse
    simp only [problemSymbols, List.mem_append] at this ⊢
    tauto
  · simp only [List.forall_mem_map]
    exact fun e he => C.path_scope e (hs e he)
  · rw [C.time_value r c, C.prepared.times.1, C.prepared.times.2]
    rfl
  · rw [C.position_value r c]

theorem s_value : Ocp.scalar ((Ocp.funAt (q.functionsOf M.elements).sCost el).callAt ops
    (userPoint o M b p theta el tau ρ c)) = o.S.eval ops ρ := by
  have h := C.path_values ops hel r c [o.S] (by simp [alongPath])
  simp only [Ocp.functionsOf]
  rw [funAt_range _ _ _ hel, C.prepared.sCost]
  simp only [List.map_cons, List.map_nil] at h
  rw [h]
  rfl

theorem path_value (e : Expr) (he : e ∈ alongPath o) :
    (Ocp.funAt ((List.range M.elements).map fun el =>
      Fun.mk q.model.allSym [q.inTime M.elements el (S e)]) el).callAt ops
      (userPoint o M b p theta el tau ρ c) = [e.eval ops ρ] := by
  rw [funAt_range _ _ _ hel]
  exact C.path_values ops hel r c [e] (by simpa using he)

omit [IsStrictOrderedRing K]

omit hel in
theorem final_values : (q.functionsOf M.elements).final.call ops
    [o.model.x.map ρ ++ [c], b.eta, fullP o b p] = o.hFinal.map (Expr.eval ops ρ) := by
  obtain ⟨h₁, h₂, h₃, h₄, h₅, h₆, h₇, h₈, h₉⟩ := C.prepared.symbols
  show Fun.call ops ⟨[q.model.x, q.eta, q.model.p], q.hFinal⟩ _ = _
  rw [call_eq ops ⟨[q.model.x, q.eta, q.model.p], q.hFinal⟩
    [o.model.x.map ρ ++ [c], b.eta, fullP o b p] (values xc fresh base b el ρ c) ?_ ?_]
  · simp only [C.final_eq]
    refine List.map_congr_left fun e he => Expr.eval_congr ops _ _ _ fun s hs => ?_
    refine C.values_known _ _ _ s ?_
    have := C.scope.final e he s hs
    simp only [problemSymbols, List.mem_append] at this ⊢
    tauto
  · have := C.function_scope.final
    simpa [or_assoc] using this
  · show Agrees (q.model.x ++ (q.eta ++ (q.model.p ++ []))) (_ ++ (b.eta ++ (_ ++ []))) _
    refine Agrees.append (C.states_agree c) (Agrees.append ?_ (Agrees.append
      (C.parameters_agree r c) (fun s hs => by simp at hs) C.fullP_length) ?_) ?_
    · rw [C.prepared.others.1]
      refine agrees_of_index C.shared.eta fun i s hs => ?_
      rw [C.values_known _ _ _ s (by simp [problemSymbols, List.mem_of_getElem? hs])]
      exact r.etas i s hs
    · rw [C.prepared.others.1]; exact C.shared.eta.symm
    · simp [h₃]

omit hel in
theorem timeless_values : (q.functionsOf M.elements).timeless.call ops [fullP o b p] =
    o.h.map (Expr.eval ops ρ) := by
  show Fun.call ops ⟨[q.model.p], q.h⟩ _ = _
  rw [call_eq ops ⟨[q.model.p], q.h⟩ [fullP o b p] (values xc fresh base b el ρ 0) ?_ ?_]
  · simp only [C.timeless_eq]
    refine List.map_congr_left fun e he => Expr.eval_congr ops _ _ _ fun s hs => ?_
    refine C.values_known _ _ _ s ?_
    simp [problemSymbols, C.scope.timeless e he s hs]
  · simpa using C.function_scope.timeless
  · show Agrees (q.model.p ++ []) (_ ++ []) _
    rw [List.append_nil, List.append_nil]
    exact C.parameters_agree r 0

omit hel in
theorem v_value : Ocp.scalar ((q.functionsOf M.elements).vCost.call ops
    [o.model.x.map ρ ++ [c], fullP o b p]) = o.V.eval ops ρ + c := by
  obtain ⟨h₁, h₂, h₃, h₄, h₅, h₆, h₇, h₈, h₉⟩ := C.prepared.symbols
  show Ocp.scalar (Fun.call ops ⟨[q.model.x, q.model.p], [q.V]⟩ _) = _
  rw [call_eq ops ⟨[q.model.x, q.model.p], [q.V]⟩
    [o.model.x.map ρ ++ [c], fullP o b p] (values xc fresh base b el ρ c) ?_ ?_]
  · simp only [C.vCost_eq, List.map_cons, List.map_nil, Ocp.scalar, List.getD_cons_zero, Expr.eval]
    congr 1
    · refine Expr.eval_congr ops _ _ _ fun s hs => C.values_known _ _ _ s ?_
      have := C.scope.cost s hs
      simp only [problemSymbols, List.mem_append] at this ⊢
      tauto
    · exact values_cost el ρ c
  · have := C.function_scope.cost
    simpa using this
  · show Agrees (q.model.x ++ (q.model.p ++ [])) (_ ++ (_ ++ [])) _
    refine Agrees.append (C.states_agree c) (Agrees.append
      (C.parameters_agree r c) (fun s hs => by simp at hs) C.fullP_length) ?_
    simp [h₃]

omit hel in
theorem initial_values : (q.functionsOf M.elements).initial.call ops
    [o.model.x.map ρ ++ [c], x0 ++ [0]] = o.hInitial.map (Expr.eval ops ρ) ++ [0 - c] := by
  obtain ⟨h₁, h₂, h₃, h₄, h₅, h₆, h₇, h₈, h₉⟩ := C.prepared.symbols
  have hv : Fun.call ops ⟨[q.model.x, q.model.x0], q.hInitial⟩ [o.model.x.map ρ ++ [c], x0 ++ [0]] =
      q.hInitial.map (Expr.eval ops (values xc fresh base b el ρ c)) := by
    rw [call_eq ops ⟨[q.model.x, q.model.x0], q.hInitial⟩
      [o.model.x.map ρ ++ [c], x0 ++ [0]] (values xc fresh base b el ρ c) ?_ ?_]
    · have := C.function_scope.initial
      simpa using this
    · show Agrees (q.model.x ++ (q.model.x0 ++ [])) (_ ++ (x0 ++ [0] ++ [])) _
      refine Agrees.append (C.states_agree c) ?_ ?_
      · rw [List.append_nil, List.append_nil, h₄]
        refine Agrees.append (agrees_of_index ?_ fun i s hs => ?_) (agrees_of_index rfl fun i s hs => ?_) ?_
        · rw [C.data.x0, C.problem.starts]
        · rw [C.values_known _ _ _ s (by simp [problemSymbols, List.mem_of_getElem? hs])]
          exact r.starts i s hs
        · match i, hs with
          | 0, hs =>
            simp only [List.getElem?_cons_zero, Option.some.injEq] at hs
            subst hs
            exact C.values_fresh el ρ c
        · rw [C.data.x0, C.problem.starts]
      · simp [h₃]
  show Fun.call ops ⟨[q.model.x, q.model.x0], q.hInitial⟩ _ = _
  rw [hv, C.initial_eq]
  simp only [List.map_append, List.map_cons, List.map_nil, Expr.eval, C.values_fresh,
    values_cost]
  congr 1
  refine List.map_congr_left fun e he => Expr.eval_congr ops _ _ _ fun s hs => C.values_known _ _ _ s ?_
  have := C.scope.initial e he s hs
  simp only [problemSymbols, List.mem_append] at this ⊢
  tauto

end Read

section Limits
variable {m : Transcription K}

theorem limits_fit [IsStrictOrderedRing K] (hd : m.dims = directDims o M)
    (h₁ : m.duMin = q.duMin.map Ocp.boundValue) (h₂ : m.duMax = q.duMax.map Ocp.boundValue)
    {lastU : Option (List K)} (hl : LimitsFit o lastU) (h : m.hasDeltaU = true) : RatesFit m lastU := by
  rw [C.prepared.limits.1] at h₁
  rw [C.prepared.limits.2] at h₂
  refine ⟨?_, ?_, ?_, ?_, ?_⟩
  · rw [hd, h₁, List.length_map]; exact hl.min
  · rw [hd, h₂, List.length_map]; exact hl.max
  · intro i lo hi hlo hhi
    rw [h₁, List.getElem?_map, Option.map_eq_some_iff] at hlo
    rw [h₂, List.getElem?_map, Option.map_eq_some_iff] at hhi
    obtain ⟨lo', hlo', rfl⟩ := hlo
    obtain ⟨hi', hhi', rfl⟩ := hhi
    exact boundValue_mono (hl.uncrossed i lo' hi' hlo' hhi')
  · unfold Transcription.hasDeltaU at h
    rw [hd] at h ⊢
    obtain ⟨i, hi, -⟩ := List.any_eq_true.mp h
    have hi : i < o.model.u.length := List.mem_range.mp hi
    have : 0 < o.model.u.length * M.controlRoots.length :=
      Nat.mul_pos (by omega) C.controlMesh.controls
    simp [controlPoints, directDims, this, C.controlMesh.controls]
  · rw [hd]; exact hl.last

theorem limits_iff (hd : m.dims.elements = M.elements)
    (h₁ : m.duMin = q.duMin.map Ocp.boundValue) (h₂ : m.duMax = q.duMax.map Ocp.boundValue)
    (lastU : Option (List K)) : RatesHold m b lastU ↔
    ∀ el < M.elements, ∀ before now, controlBefore b lastU el = some before →
    (b.u.getD el []).head? = some now → ∀ (i : Nat) (a c : K) (lo hi : XRat), now[i]? = some a →
    before[i]? = some c → o.duMin[i]? = some lo → o.duMax[i]? = some hi →
    (Ocp.boundValue lo : WithBot (WithTop K)) ≤ ((a - c : K) : WithTop K) ∧
      (((a - c : K) : WithTop K) : WithBot (WithTop K)) ≤ Ocp.boundValue hi := by
  rw [C.prepared.limits.1] at h₁
  rw [C.prepared.limits.2] at h₂
  constructor
  · intro h el hel before now hb hn i a c lo hi ha hc hlo hhi
    refine h el (hd ▸ hel) before now hb hn i a c _ _ ha hc ?_ ?_
    · rw [h₁, List.getElem?_map, hlo]; rfl
    · rw [h₂, List.getElem?_map, hhi]; rfl
  · intro h el hel before now hb hn i a c lo hi ha hc hlo hhi
    rw [h₁, List.getElem?_map, Option.map_eq_some_iff] at hlo
    rw [h₂, List.getElem?_map, Option.map_eq_some_iff] at hhi
    obtain ⟨lo', hlo', rfl⟩ := hlo
    obtain ⟨hi', hhi', rfl⟩ := hhi
    exact h el (hd ▸ hel) before now hb hn i a c lo' hi' ha hc hlo' hhi'

end Limits

end Common
end Direct
end Verif
