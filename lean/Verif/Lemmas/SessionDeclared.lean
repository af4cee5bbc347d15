import Verif.Lemmas.Session
import Verif.Lemmas.Merge
/-!
# A problem says what the program declared
-/
namespace Verif
namespace Session
open Spec SysModel

/-- The table of the new states of a statement. -/
def newStates (v : Sym) : Statement → List (Sym × Option Expr)
  | .createState n none _ _ _ _ => (List.range n).map fun i => (v + i, none)
  | .createState n (some e) _ _ _ _ => ((List.range n).map (v + ·)).zip (e.map some)
  | _ => []

/-- The initial conditions of a statement. -/
def newInitial (v : Sym) : Statement → List Expr
  | .createState n _ (some _) _ _ _ =>
      (List.range n).map fun i => Expr.sub (.sym (v + n + i)) (.sym (v + i))
  | st => declaredInitial st

theorem initialConditions_cons (v : Sym) (st : Statement) (sts : List Statement) :
    initialConditions v (st :: sts) = newInitial v st ++ initialConditions (v + st.uses) sts := by
  cases st with
  | createState n ode x0 hi lo h => cases x0 <;> rfl
  | _ => rfl

theorem stateEquations_cons (v : Sym) (st : Statement) (sts : List Statement) :
    stateEquations v (st :: sts) = newStates v st ++ stateEquations (v + st.uses) sts := by
  cases st with
  | createState n ode x0 hi lo h => cases ode <;> rfl
  | _ => rfl

/-- The effect of a statement. -/
structure Step (st : Statement) (o o' : Ocp) : Prop where
  horizon : o'.t0 = o.t0 ∧ o'.tf = o.tf
  gIneq : o'.gIneq = o.gIneq ++ (declaredInequalities st).map Prod.fst
  timeGIneq : o'.timeGIneq = o.timeGIneq ++ (declaredInequalities st).map Prod.snd
  gEq : o'.gEq = o.gEq ++ (declaredEqualities st).map Prod.fst
  timeGEq : o'.timeGEq = o.timeGEq ++ (declaredEqualities st).map Prod.snd
  final : o'.hFinal = o.hFinal ++ declaredFinal st
  timeless : o'.h = o.h ++ declaredTimeless st
  L : o'.L = (declaredL st).getD o.L
  V : o'.V = (declaredV st).getD o.V
  S : o'.S = (declaredS st).getD o.S
  algebraic : o'.model.alg = o.model.alg ++ declaredAlgebraic st
  start : o'.x0 = o.x0 ++ declaredStart st
  y : o'.yMin.zip o'.yMax = o.yMin.zip o.yMax ++ declaredY st
  u : o'.uMin.zip o'.uMax = o.uMin.zip o.uMax ++ declaredU st
  du : o'.duMin.zip o'.duMax = o.duMin.zip o.duMax ++ declaredDu st
  pOpt : o'.pOptMin.zip o'.pOptMax = o.pOptMin.zip o.pOptMax ++ declaredPOpt st
  thetaOpt : o'.thetaOptMin.zip o'.thetaOptMax = o.thetaOptMin.zip o.thetaOptMax ++ declaredThetaOpt st

theorem asked_getD {d : XRat} {n : Nat} {a : Option (List XRat)}
    (h : n = (a.getD (List.replicate n d)).length) : a.getD (List.replicate n d) = askedBound d n a := by
  match a, h with
  | none, _ => rfl
  | some [], _ => rfl
  | some [b], h =>
    simp only [Option.getD_some, List.length_singleton] at h
    subst h
    rfl
  | some (_ :: _ :: _), _ => rfl

theorem asked_control {d : XRat} {n : Nat} {a : Option (List XRat)}
    (h : n = (Ocp.controlBound d n a).length) : Ocp.controlBound d n a = askedBound d n a := by
  unfold Ocp.controlBound at h ⊢
  match a, h with
  | none, _ =>
    match n with
    | 0 => rfl
    | 1 => rfl
    | n + 2 => rfl
  | some [], _ => rfl
  | some [b], h =>
    simp only [Option.getD_some, Ocp.broadcast] at h ⊢
    split at h
    · rename_i h'
      simp only [h', if_true]
      rfl
    · rename_i h'
      simp only [List.length_singleton] at h
      subst h
      rfl
  | some (_ :: _ :: _), _ => rfl

theorem step {st : Statement} {s s' : Session} (hb : Sized s.problem) (hr : st.run s = (.ok (), s')) :
    Step st s.problem s'.problem := by
  obtain ⟨hr, -⟩ := run_ok hr
  obtain ⟨o', next'⟩ := s'
  have hnil : ∀ {α : Type} (l : List α), l = l ++ [] := fun l => (List.append_nil l).symm
  have hpar : ∀ {w lo hi} {o o' : Ocp}, Sized o → Ocp.setParameterOpt w lo hi o = (.ok (), o') →
      Step (.setParameterOpt w lo hi) o o' := fun hb h => by
    obtain ⟨h₁, h₂, rfl⟩ := Ocp.setParameterOpt_ok_iff.mp h
    constructor <;> first | exact ⟨rfl, rfl⟩ | exact hnil _ | rfl | skip
    simp only [declaredPOpt, ← asked_getD h₁, ← asked_getD h₂]
    exact List.zip_append (hb.pOptMin.trans hb.pOptMax.symm)
  have htheta : ∀ {w lo hi} {o o' : Ocp}, Sized o → Ocp.setThetaOpt w lo hi o = (.ok (), o') →
      Step (.setThetaOpt w lo hi) o o' := fun hb h => by
    obtain ⟨h₁, h₂, rfl⟩ := Ocp.setThetaOpt_ok_iff.mp h
    constructor <;> first | exact ⟨rfl, rfl⟩ | exact hnil _ | rfl | skip
    simp only [declaredThetaOpt, ← asked_getD h₁, ← asked_getD h₂]
    exact List.zip_append (hb.thetaOptMin.trans hb.thetaOptMax.symm)
  cases st with
  | createState n ode x0 hi lo h =>
    obtain ⟨-, lo', hi', m', h, -, -, -, -, -, hm, hi₀, rfl⟩ := Ocp.includeState_ok_iff.mp hr
    obtain ⟨-, -, -, -, rfl⟩ := (SysModel.includeState_ok_iff ..).mp hm
    constructor <;> first | exact ⟨rfl, rfl⟩ | exact hnil _ | rfl | skip
    simp only [declaredStart, length_newSyms]
  | createAlgebraic n alg hi lo g =>
    obtain ⟨h₁, h₂, rfl⟩ := Ocp.includeAlgebraic_ok_iff.mp hr
    simp only [length_newSyms] at h₁ h₂ ⊢
    constructor <;> first | exact ⟨rfl, rfl⟩ | exact hnil _ | rfl | skip
    simp only [declaredY, ← asked_getD h₁, ← asked_getD h₂]
    exact List.zip_append (hb.yMin.trans hb.yMax.symm)
  | createControl n lo hi dlo dhi g =>
    obtain ⟨-, h₁, h₂, h₃, h₄, -, rfl⟩ := Ocp.includeControl_ok_iff.mp hr
    simp only [length_newSyms] at h₁ h₂ h₃ h₄ ⊢
    constructor <;> first | exact ⟨rfl, rfl⟩ | exact hnil _ | rfl | skip
    · simp only [declaredU, ← asked_control h₁, ← asked_control h₂]
      exact List.zip_append (hb.uMin.trans hb.uMax.symm)
    · simp only [declaredDu, ← asked_control h₃, ← asked_control h₄]
      exact List.zip_append (hb.duMin.trans hb.duMax.symm)
  | createParameterOpt n lo hi =>
    have := hpar (o := { s.problem with model := { s.problem.model with
      p := s.problem.model.p ++ newSyms s.next n } }) { hb with } hr
    exact { this with
      pOpt := by
        rw [this.pOpt]
        simp only [declaredPOpt, length_newSyms] }
  | createThetaOpt n lo hi =>
    have := htheta (o := { s.problem with model := { s.problem.model with
      theta := s.problem.model.theta ++ newSyms s.next n } }) { hb with } hr
    exact { this with
      thetaOpt := by
        rw [this.thetaOpt]
        simp only [declaredThetaOpt, length_newSyms] }
  | setParameterOpt => exact hpar hb hr
  | setThetaOpt => exact htheta hb hr
  | systemEquations ode alg =>
    obtain ⟨m', hm, rfl⟩ := Ocp.onModel_ok.mp hr
    have : m'.alg = s.problem.model.alg ++ alg := by
      cases ode with
      | none =>
        rw [includeEquations_alg] at hm
        cases hm
        rfl
      | some e =>
        unfold includeEquations includeAlgEquations at hm
        simp only [Py.bind_eq, Py.modify_bind, includeArgs, List.flatMap_nil, List.append_nil] at hm
        obtain ⟨_, m₁, h₁, hm⟩ := Py.bind_eq_ok.mp hm
        cases h₁
        rw [Py.get_bind] at hm
        cases hg : guessStates { s.problem.model with alg := s.problem.model.alg ++ alg } e.length with
        | error e' =>
          rw [hg, Py.lift_error_bind] at hm
          cases hm
        | ok xs =>
          rw [hg, Py.lift_ok_bind, includeFromKwargs_ok_iff] at hm
          obtain ⟨-, -, rfl⟩ := hm
          rfl
    constructor <;> first | exact ⟨rfl, rfl⟩ | exact hnil _ | exact this | rfl
  | timeInequality e w =>
    cases hr
    constructor <;> first | exact ⟨rfl, rfl⟩ | exact hnil _ | rfl | skip
    · simp only [declaredInequalities, List.map_map, Function.comp_def, List.map_id']
    · simp only [declaredInequalities, List.map_map, Function.comp_def, List.map_const']
  | timeEquality e w =>
    cases hr
    constructor <;> first | exact ⟨rfl, rfl⟩ | exact hnil _ | rfl | skip
    · simp only [declaredEqualities, List.map_map, Function.comp_def, List.map_id']
    · simp only [declaredEqualities, List.map_map, Function.comp_def, List.map_const']
  | _ =>
    cases hr
    constructor <;> first | exact ⟨rfl, rfl⟩ | exact hnil _ | rfl

theorem sized_step {st : Statement} {s s' : Session} (hb : Sized s.problem)
    (hr : st.run s = (.ok (), s')) : Sized s'.problem := by
  obtain ⟨hr, -⟩ := run_ok hr
  obtain ⟨o', next'⟩ := s'
  cases st with
  | createState n ode x0 hi lo h =>
    exact Ocp.call_sized (.includeState (newSyms s.next n) ode x0 lo hi h none false (s.next + n)) _ _ hb
      trivial hr
  | createAlgebraic n alg hi lo g =>
    exact Ocp.call_sized (.includeAlgebraic (newSyms s.next n) alg lo hi g) _ _ hb trivial hr
  | createControl n lo hi dlo dhi g =>
    exact Ocp.call_sized (.includeControl (newSyms s.next n) lo hi dlo dhi g) _ _ hb trivial hr
  | createParameterOpt n lo hi =>
    exact Ocp.call_sized (.setParameterOpt (newSyms s.next n) lo hi) { s.problem with
      model := { s.problem.model with p := s.problem.model.p ++ newSyms s.next n } } _ { hb with } trivial hr
  | createThetaOpt n lo hi =>
    exact Ocp.call_sized (.setThetaOpt (newSyms s.next n) lo hi) { s.problem with
      model := { s.problem.model with theta := s.problem.model.theta ++ newSyms s.next n } } _ { hb with }
      trivial hr
  | setParameterOpt v lo hi => exact Ocp.call_sized (.setParameterOpt v lo hi) _ _ hb trivial hr
  | setThetaOpt v lo hi => exact Ocp.call_sized (.setThetaOpt v lo hi) _ _ hb trivial hr
  | systemEquations ode alg =>
    exact Ocp.call_sized (.includeSystemEquations ode alg) _ _ hb trivial hr
  | _ =>
    cases hr
    exact { hb with }

theorem step_next {st : Statement} {s s' : Session} (hr : st.run s = (.ok (), s')) :
    s'.next = s.next + st.uses := (run_ok hr).2

/-- The differential equations after a statement. -/
theorem step_states {st : Statement} {s s' : Session} (hr : st.run s = (.ok (), s'))
    (he : ∀ ode alg, st ≠ .systemEquations (some ode) alg) :
    s'.problem.model.ode = s.problem.model.ode ++ newStates s.next st := by
  obtain ⟨hr, -⟩ := run_ok hr
  obtain ⟨o', next'⟩ := s'
  have hnil : ∀ l : Dict Sym (Option Expr), l = l ++ [] := fun l => (List.append_nil l).symm
  cases st with
  | createState n ode x0 hi lo h =>
    obtain ⟨-, lo', hi', m', h, -, -, -, -, -, hm, hi₀, rfl⟩ := Ocp.includeState_ok_iff.mp hr
    obtain ⟨-, hn, hd, hl, rfl⟩ := (SysModel.includeState_ok_iff ..).mp hm
    cases ode with
    | none =>
      show s.problem.model.ode ++ (newSyms s.next n).map (fun v => (v, none)) = _
      simp only [newSyms, newStates, List.map_map, Function.comp_def]
    | some e =>
      have := hl e rfl
      exact update_fresh_slots _ _ _ hn hd (by rw [List.length_map, this])
  | createAlgebraic n alg hi lo g =>
    obtain ⟨h₁, h₂, rfl⟩ := Ocp.includeAlgebraic_ok_iff.mp hr
    exact hnil _
  | createControl n lo hi dlo dhi g =>
    obtain ⟨-, h₁, h₂, h₃, h₄, -, rfl⟩ := Ocp.includeControl_ok_iff.mp hr
    exact hnil _
  | createParameterOpt n lo hi =>
    have hr : Ocp.setParameterOpt (newSyms s.next n) lo hi { s.problem with model := { s.problem.model with
      p := s.problem.model.p ++ newSyms s.next n } } = (.ok (), o') := hr
    obtain ⟨-, -, rfl⟩ := Ocp.setParameterOpt_ok_iff.mp hr
    exact hnil _
  | createThetaOpt n lo hi =>
    have hr : Ocp.setThetaOpt (newSyms s.next n) lo hi { s.problem with model := { s.problem.model with
      theta := s.problem.model.theta ++ newSyms s.next n } } = (.ok (), o') := hr
    obtain ⟨-, -, rfl⟩ := Ocp.setThetaOpt_ok_iff.mp hr
    exact hnil _
  | setParameterOpt =>
    obtain ⟨-, -, rfl⟩ := Ocp.setParameterOpt_ok_iff.mp hr
    exact hnil _
  | setThetaOpt =>
    obtain ⟨-, -, rfl⟩ := Ocp.setThetaOpt_ok_iff.mp hr
    exact hnil _
  | systemEquations ode alg =>
    cases ode with
    | some e => exact absurd rfl (he e alg)
    | none =>
      obtain ⟨m', hm, rfl⟩ := Ocp.onModel_ok.mp hr
      rw [includeEquations_alg] at hm
      cases hm
      exact hnil _
  | _ =>
    cases hr
    exact hnil _

/-- The initial conditions after a statement. -/
theorem step_initial {st : Statement} {s s' : Session} (hr : st.run s = (.ok (), s')) :
    s'.problem.hInitial = s.problem.hInitial ++ newInitial s.next st := by
  obtain ⟨hr, -⟩ := run_ok hr
  obtain ⟨o', next'⟩ := s'
  have hnil : ∀ l : List Expr, l = l ++ [] := fun l => (List.append_nil l).symm
  cases st with
  | createState n ode x0 hi lo h =>
    obtain ⟨-, lo', hi', m', h', -, -, -, -, -, hm, hi₀, rfl⟩ := Ocp.includeState_ok_iff.mp hr
    cases x0 with
    | none =>
      cases hi₀
      rfl
    | some w =>
      show s.problem.hInitial ++ h'.getD [] = s.problem.hInitial ++ _
      congr 1
      unfold Ocp.initialConstraint Ocp.x0Symbols at hi₀
      simp only [length_newSyms] at hi₀
      unfold vecSub at hi₀
      rw [if_pos (by simp [newSyms])] at hi₀
      cases hi₀
      simp only [newInitial, newSyms, List.map_map, Option.getD_some, Function.comp_def]
      rw [List.zipWith_map, List.zipWith_self]
  | createAlgebraic n alg hi lo g =>
    obtain ⟨h₁, h₂, rfl⟩ := Ocp.includeAlgebraic_ok_iff.mp hr
    exact hnil _
  | createControl n lo hi dlo dhi g =>
    obtain ⟨-, h₁, h₂, h₃, h₄, -, rfl⟩ := Ocp.includeControl_ok_iff.mp hr
    exact hnil _
  | createParameterOpt n lo hi =>
    have hr : Ocp.setParameterOpt (newSyms s.next n) lo hi { s.problem with model := { s.problem.model with
      p := s.problem.model.p ++ newSyms s.next n } } = (.ok (), o') := hr
    obtain ⟨-, -, rfl⟩ := Ocp.setParameterOpt_ok_iff.mp hr
    exact hnil _
  | createThetaOpt n lo hi =>
    have hr : Ocp.setThetaOpt (newSyms s.next n) lo hi { s.problem with model := { s.problem.model with
      theta := s.problem.model.theta ++ newSyms s.next n } } = (.ok (), o') := hr
    obtain ⟨-, -, rfl⟩ := Ocp.setThetaOpt_ok_iff.mp hr
    exact hnil _
  | setParameterOpt =>
    obtain ⟨-, -, rfl⟩ := Ocp.setParameterOpt_ok_iff.mp hr
    exact hnil _
  | setThetaOpt =>
    obtain ⟨-, -, rfl⟩ := Ocp.setThetaOpt_ok_iff.mp hr
    exact hnil _
  | systemEquations ode alg =>
    obtain ⟨m', hm, rfl⟩ := Ocp.onModel_ok.mp hr
    exact hnil _
  | _ =>
    cases hr
    first | rfl | exact hnil _

theorem program_cons {st : Statement} {sts : List Statement} {s s' : Session}
    (h : program (st :: sts) s = (.ok (), s')) :
    ∃ s₁, st.run s = (.ok (), s₁) ∧ program sts s₁ = (.ok (), s') := by
  unfold program at h ⊢
  simp only [Py.forEach] at h
  obtain ⟨_, s₁, h₁, h₂⟩ := Py.bind_eq_ok.mp h
  exact ⟨s₁, h₁, h₂⟩

theorem program_nil {s s' : Session} (h : program [] s = (.ok (), s')) : s' = s := by
  cases h
  rfl

/-- The constraints and costs after a program. -/
theorem steps {sts : List Statement} {s s' : Session} (hb : Sized s.problem)
    (ht : s.problem.gIneq.length = s.problem.timeGIneq.length ∧
      s.problem.gEq.length = s.problem.timeGEq.length)
    (h : program sts s = (.ok (), s')) :
    (s'.problem.t0 = s.problem.t0 ∧ s'.problem.tf = s.problem.tf) ∧
    s'.problem.gIneq.zip s'.problem.timeGIneq =
      s.problem.gIneq.zip s.problem.timeGIneq ++ sts.flatMap declaredInequalities ∧
    s'.problem.gEq.zip s'.problem.timeGEq =
      s.problem.gEq.zip s.problem.timeGEq ++ sts.flatMap declaredEqualities ∧
    s'.problem.hFinal = s.problem.hFinal ++ sts.flatMap declaredFinal ∧
    s'.problem.h = s.problem.h ++ sts.flatMap declaredTimeless ∧
    s'.problem.L = lastCost declaredL s.problem.L sts ∧
    s'.problem.V = lastCost declaredV s.problem.V sts ∧
    s'.problem.S = lastCost declaredS s.problem.S sts ∧
    s'.problem.model.alg = s.problem.model.alg ++ sts.flatMap declaredAlgebraic ∧
    s'.problem.x0 = s.problem.x0 ++ sts.flatMap declaredStart ∧
    s'.problem.yMin.zip s'.problem.yMax = s.problem.yMin.zip s.problem.yMax ++ sts.flatMap declaredY ∧
    s'.problem.uMin.zip s'.problem.uMax = s.problem.uMin.zip s.problem.uMax ++ sts.flatMap declaredU ∧
    s'.problem.duMin.zip s'.problem.duMax = s.problem.duMin.zip s.problem.duMax ++ sts.flatMap declaredDu ∧
    s'.problem.pOptMin.zip s'.problem.pOptMax =
      s.problem.pOptMin.zip s.problem.pOptMax ++ sts.flatMap declaredPOpt ∧
    s'.problem.thetaOptMin.zip s'.problem.thetaOptMax =
      s.problem.thetaOptMin.zip s.problem.thetaOptMax ++ sts.flatMap declaredThetaOpt := by
  induction sts generalizing s with
  | nil =>
    obtain rfl := program_nil h
    simp [lastCost]
  | cons st sts ih =>
    obtain ⟨s₁, h₁, h⟩ := program_cons h
    have hs := step hb h₁
    have hlast : ∀ (f : Statement → Option Expr) (before : Expr),
        lastCost f ((f st).getD before) sts = lastCost f before (st :: sts) := fun f before => by
      unfold lastCost
      rw [List.filterMap_cons]
      cases f st with
      | none => rfl
      | some e => simp [List.getLastD_eq_getLast?, List.getLast?_cons]
    have ht₁ : s₁.problem.gIneq.length = s₁.problem.timeGIneq.length ∧
        s₁.problem.gEq.length = s₁.problem.timeGEq.length := by
      rw [hs.gIneq, hs.timeGIneq, hs.gEq, hs.timeGEq]
      simp [ht.1, ht.2]
    obtain ⟨⟨a₁, a₂⟩, b, c, d, e, f, g, k, l, m, n, p, q, r, w⟩ := ih (sized_step hb h₁) ht₁ h
    have hz : ∀ l : List (Expr × String), (l.map Prod.fst).zip (l.map Prod.snd) = l := fun l => by
      rw [List.zip_map']
      exact List.map_id _
    refine ⟨⟨a₁.trans hs.horizon.1, a₂.trans hs.horizon.2⟩, ?_, ?_, ?_, ?_, ?_, ?_, ?_, ?_, ?_, ?_, ?_, ?_, ?_, ?_⟩
    · rw [b, hs.gIneq, hs.timeGIneq, List.zip_append ht.1, hz, List.flatMap_cons, List.append_assoc]
    · rw [c, hs.gEq, hs.timeGEq, List.zip_append ht.2, hz, List.flatMap_cons, List.append_assoc]
    · rw [d, hs.final, List.flatMap_cons, List.append_assoc]
    · rw [e, hs.timeless, List.flatMap_cons, List.append_assoc]
    · rw [f, hs.L, hlast]
    · rw [g, hs.V, hlast]
    · rw [k, hs.S, hlast]
    · rw [l, hs.algebraic, List.flatMap_cons, List.append_assoc]
    · rw [m, hs.start, List.flatMap_cons, List.append_assoc]
    · rw [n, hs.y, List.flatMap_cons, List.append_assoc]
    · rw [p, hs.u, List.flatMap_cons, List.append_assoc]
    · rw [q, hs.du, List.flatMap_cons, List.append_assoc]
    · rw [r, hs.pOpt, List.flatMap_cons, List.append_assoc]
    · rw [w, hs.thetaOpt, List.flatMap_cons, List.append_assoc]

theorem steps_initial {sts : List Statement} {s s' : Session} (h : program sts s = (.ok (), s')) :
    s'.problem.hInitial = s.problem.hInitial ++ initialConditions s.next sts := by
  induction sts generalizing s with
  | nil =>
    obtain rfl := program_nil h
    simp [initialConditions]
  | cons st sts ih =>
    obtain ⟨s₁, h₁, h⟩ := program_cons h
    rw [ih h, step_initial h₁, step_next h₁, initialConditions_cons, List.append_assoc]

theorem steps_states {sts : List Statement} {s s' : Session} (h : program sts s = (.ok (), s'))
    (he : EquationsWithStates sts) :
    s'.problem.model.ode = s.problem.model.ode ++ stateEquations s.next sts := by
  induction sts generalizing s with
  | nil =>
    obtain rfl := program_nil h
    simp [stateEquations]
  | cons st sts ih =>
    obtain ⟨s₁, h₁, h⟩ := program_cons h
    rw [ih h fun ode alg hm => he ode alg (List.mem_cons_of_mem _ hm),
      step_states h₁ fun ode alg hst => he ode alg (hst ▸ List.mem_cons_self), step_next h₁,
      stateEquations_cons, List.append_assoc]

/-- The variables after a statement. -/
structure NewVars (v : Sym) (c : Counts) (m m' : SysModel) : Prop where
  x : m'.x = m.x ++ (List.range c.x).map (v + ·)
  y : m'.y = m.y ++ (List.range c.y).map (v + ·)
  u : m'.u = m.u ++ (List.range c.u).map (v + ·)
  p : m'.p = m.p ++ (List.range c.p).map (v + ·)
  theta : m'.theta = m.theta ++ (List.range c.theta).map (v + ·)

theorem step_variables {st : Statement} {s s' : Session} (hr : st.run s = (.ok (), s')) :
    NewVars s.next (creates st) s.problem.model s'.problem.model := by
  obtain ⟨hr, -⟩ := run_ok hr
  obtain ⟨o', next'⟩ := s'
  have hnil : ∀ l : List Sym, l = l ++ [] := fun l => (List.append_nil l).symm
  cases st with
  | createState n ode x0 hi lo h =>
    obtain ⟨-, lo', hi', m', h, -, -, -, -, -, hm, hi₀, rfl⟩ := Ocp.includeState_ok_iff.mp hr
    obtain ⟨-, -, -, -, rfl⟩ := (SysModel.includeState_ok_iff ..).mp hm
    constructor <;> first | exact hnil _ | rfl
  | createAlgebraic n alg hi lo g =>
    obtain ⟨h₁, h₂, rfl⟩ := Ocp.includeAlgebraic_ok_iff.mp hr
    constructor <;> first | exact hnil _ | rfl
  | createControl n lo hi dlo dhi g =>
    obtain ⟨-, h₁, h₂, h₃, h₄, -, rfl⟩ := Ocp.includeControl_ok_iff.mp hr
    constructor <;> first | exact hnil _ | rfl
  | createParameterOpt n lo hi =>
    have hr : Ocp.setParameterOpt (newSyms s.next n) lo hi { s.problem with model := { s.problem.model with
      p := s.problem.model.p ++ newSyms s.next n } } = (.ok (), o') := hr
    obtain ⟨-, -, rfl⟩ := Ocp.setParameterOpt_ok_iff.mp hr
    constructor <;> first | exact hnil _ | rfl
  | createThetaOpt n lo hi =>
    have hr : Ocp.setThetaOpt (newSyms s.next n) lo hi { s.problem with model := { s.problem.model with
      theta := s.problem.model.theta ++ newSyms s.next n } } = (.ok (), o') := hr
    obtain ⟨-, -, rfl⟩ := Ocp.setThetaOpt_ok_iff.mp hr
    constructor <;> first | exact hnil _ | rfl
  | setParameterOpt =>
    obtain ⟨-, -, rfl⟩ := Ocp.setParameterOpt_ok_iff.mp hr
    constructor <;> exact hnil _
  | setThetaOpt =>
    obtain ⟨-, -, rfl⟩ := Ocp.setThetaOpt_ok_iff.mp hr
    constructor <;> exact hnil _
  | systemEquations ode alg =>
    obtain ⟨m', hm, rfl⟩ := Ocp.onModel_ok.mp hr
    have he : m' = (includeEquations [] ode none alg s.problem.model).2 := by rw [hm]
    have hk : Keeps (fun _ => True) s.problem.model m' := he ▸
      keeps_includeEquations (fun _ _ => trivial) (fun _ _ => trivial) (fun _ _ => trivial)
        (fun _ _ => trivial) _ (keeps_self _ _ fun _ _ => trivial)
    have hu : m'.u = s.problem.model.u := by
      rw [he]
      exact (u_includeEquations (U := s.problem.model.u) (E := s.problem.model.uExpr)
        (P := s.problem.model.parametrized) (a := []) (o := ode) (x := none) (g := alg) _
        ⟨rfl, rfl, rfl⟩).1
    exact ⟨hk.x.trans (hnil _), hk.y.trans (hnil _), hu.trans (hnil _), hk.p.trans (hnil _),
      hk.theta.trans (hnil _)⟩
  | _ =>
    cases hr
    constructor <;> first | exact hnil _ | rfl

theorem steps_variables {sts : List Statement} {s s' : Session} (h : program sts s = (.ok (), s')) :
    s'.problem.model.x = s.problem.model.x ++ createdSymbols Counts.x s.next sts ∧
    s'.problem.model.y = s.problem.model.y ++ createdSymbols Counts.y s.next sts ∧
    s'.problem.model.u = s.problem.model.u ++ createdSymbols Counts.u s.next sts ∧
    s'.problem.model.p = s.problem.model.p ++ createdSymbols Counts.p s.next sts ∧
    s'.problem.model.theta = s.problem.model.theta ++ createdSymbols Counts.theta s.next sts := by
  induction sts generalizing s with
  | nil =>
    obtain rfl := program_nil h
    simp [createdSymbols]
  | cons st sts ih =>
    obtain ⟨s₁, h₁, h⟩ := program_cons h
    obtain ⟨a, b, c, d, e⟩ := ih h
    obtain ⟨a', b', c', d', e'⟩ := step_variables h₁
    rw [a, b, c, d, e, a', b', c', d', e', step_next h₁]
    simp only [createdSymbols, List.append_assoc, and_self]

theorem program_of_declares {sts : List Statement} {s s' : Session} (h : Declares sts s s') :
    program sts s = (.ok (), s') := by
  induction sts generalizing s with
  | nil =>
    cases h
    rfl
  | cons st sts ih =>
    obtain ⟨s₁, hr, -, h⟩ := h
    have := ih h
    unfold program at this ⊢
    simp only [Py.forEach]
    rw [Py.bind_ok hr]
    exact this

end Session
end Verif
