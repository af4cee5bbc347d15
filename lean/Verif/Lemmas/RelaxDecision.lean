import Verif.Lemmas.RelaxWellPosed
import Verif.Lemmas.PolyDecision
/-! # Decisions of the relaxed problem and of the user's problem -/
namespace Verif.RelaxDirect
open Spec SolveDirect PolyDecision Polynomial
open Relax hiding newSyms

theorem entriesAt_get {α : Type} (l : List α) (ind : List Nat) (h : ∀ i ∈ ind, i < l.length) (k : Nat) :
    (entriesAt l ind)[k]? = ind[k]?.bind fun i => l[i]? := by
  unfold entriesAt
  induction ind generalizing k with
  | nil => simp
  | cons i is ih =>
    have hi := h i (by simp)
    rw [List.filterMap_cons, List.getElem?_eq_getElem hi]
    cases k with
    | zero => simp [List.getElem?_eq_getElem hi]
    | succ k => simpa using ih (fun j hj => h j (by simp [hj])) k

theorem otherEntries_get {α : Type} (l : List α) (n : Nat) (hn : l.length = n) (ind : List Nat) (k : Nat) :
    (otherEntries l ind)[k]? = (otherPositions n ind)[k]?.bind fun i => l[i]? := by
  subst hn
  exact entriesAt_get l (otherPositions l.length ind) (fun i hi => by
    unfold otherPositions at hi
    simp only [List.mem_filter, List.mem_range] at hi
    exact hi.1) k

theorem mem_otherPositions {n i : Nat} {ind : List Nat} : i ∈ otherPositions n ind ↔ i < n ∧ i ∉ ind := by
  unfold otherPositions
  simp

/-- Every position is listed or not. -/
theorem position_cases {n i : Nat} (ind : List Nat) (h : i < n) :
    (∃ k : Nat, ind[k]? = some i) ∨ ∃ k : Nat, (otherPositions n ind)[k]? = some i := by
  by_cases hi : i ∈ ind
  · exact .inl (List.getElem?_of_mem hi)
  · exact .inr (List.getElem?_of_mem (mem_otherPositions.2 ⟨h, hi⟩))

section
variable {K : Type} [Field K] [LinearOrder K] [IsStrictOrderedRing K]
variable {roots : List Rat} {degree : Nat} {idx vidx : List Nat} {next : Sym} {o q : Ocp} {M : Mesh}
variable {b b' : Blocks K} {x0 p mu nu : List K} {theta theta' : List (List K)}

omit [LinearOrder K] [IsStrictOrderedRing K] in
theorem step_eq (hc : Constructed roots degree idx vidx next o q) :
    (stepLength q M : K) = stepLength o M := by
  unfold stepLength
  rw [hc.untouched.horizon.1, hc.untouched.horizon.2]

omit [LinearOrder K] [IsStrictOrderedRing K] in
/-- Values of the symbols of the relaxed problem are values of the symbols of the user's problem. -/
theorem reads_user (hc : Constructed roots degree idx vidx next o q) (h : Relaxable o idx vidx)
    (hS : SameTrajectory o M vidx b b') {el : Nat} (he : el < M.elements) {tau : K} {ρ : Sym → K}
    (hp : p.length = o.model.p.length) (hth : (theta.getD el []).length = o.model.theta.length)
    (hθ : theta'.getD el [] = theta.getD el [] ++ nu)
    (hR : Reads q M b' x0 (p ++ mu) theta' el tau ρ) : Reads o M b x0 p theta el tau ρ := by
  have len : ∀ {l : List Sym} {i : Nat} {s : Sym}, l[i]? = some s → i < l.length := fun h =>
    (List.getElem?_eq_some_iff.1 h).1
  have left : ∀ {l l' : List Sym} {i : Nat} {s : Sym}, l[i]? = some s → (l ++ l')[i]? = some s := by
    intro l l' i s h
    rw [List.getElem?_append_left (len h), h]
  have leftD : ∀ {l l' : List K} {i : Nat}, i < l.length → (l ++ l').getD i 0 = l.getD i 0 := by
    intro l l' i h
    rw [List.getD_eq_getElem?_getD, List.getD_eq_getElem?_getD, List.getElem?_append_left h]
  refine ⟨⟨?_, ?_, ?_, ?_, ?_, ?_, ?_, ?_, ?_⟩, ?_, ?_⟩
  · rw [← hc.untouched.clock.1, hR.time, step_eq hc]
  · rw [← hc.untouched.clock.2, hR.position]
  · intro i s hs
    rw [hR.controls i s (by rw [hc.relaxed.u]; exact left hs), hS.controls el he i (len hs)]
  · intro i s hs hn
    rw [hR.parameters i s (by rw [hc.p]; exact left hs) (by rw [hc.untouched.pOpt.1]; exact hn),
      leftD (by rw [hp]; exact len hs)]
  · intro i s hs
    rw [hR.optimised i s (by rw [hc.untouched.pOpt.1]; exact hs), hS.pOpt]
  · intro i s hs hn
    rw [hR.thetas i s (by rw [hc.theta]; exact left hs) (by rw [hc.untouched.thetaOpt.1]; exact hn), hθ,
      leftD (by rw [hth]; exact len hs)]
  · intro i s hs
    rw [hR.optimisedThetas i s (by rw [hc.untouched.thetaOpt.1]; exact hs), hS.thetaOpt]
  · intro i s hs
    rw [hR.starts i s (by rw [hc.untouched.starts]; exact hs)]
  · intro i s hs
    rw [hR.etas i s (by rw [hc.untouched.eta]; exact hs), hS.eta]
  · intro i s hs
    rw [hR.states i s (by rw [hc.relaxed.x]; exact hs), hS.states el he i (len hs)]
  · intro i s hs
    rcases position_cases vidx (len hs) with ⟨k, hk⟩ | ⟨k, hk⟩
    · rw [hR.controls (o.model.u.length + k) s, hS.freed el he k i hk]
      rw [hc.relaxed.u, List.getElem?_append_right (by omega), Nat.add_sub_cancel_left,
        entriesAt_get _ _ h.chosen.2, hk]
      exact hs
    · rw [hR.algebraics k s, hS.kept el he k i hk]
      rw [hc.relaxed.y, otherEntries_get _ _ rfl, hk]
      exact hs

omit [LinearOrder K] [IsStrictOrderedRing K] in
/-- The penalties and the values of the multipliers. -/
theorem reads_multipliers (hc : Constructed roots degree idx vidx next o q) {el : Nat} {tau : K} {ρ : Sym → K}
    (hp : p.length = o.model.p.length) (hth : (theta.getD el []).length = o.model.theta.length)
    (hθ : theta'.getD el [] = theta.getD el [] ++ nu)
    (hpo : ∀ s ∈ o.pOpt, s < next) (hto : ∀ s ∈ o.thetaOpt, s < next)
    (hR : Reads q M b' x0 (p ++ mu) theta' el tau ρ) :
    (∀ i < idx.length, ρ (next + idx.length + i) = mu.getD i 0) ∧
      ∀ i < idx.length * degree, ρ (next + idx.length + idx.length + i) = nu.getD i 0 := by
  have right : ∀ (l l' : List K) (i : Nat), (l ++ l').getD (l.length + i) 0 = l'.getD i 0 := by
    intro l l' i
    rw [List.getD_eq_getElem?_getD, List.getElem?_append_right (by omega), Nat.add_sub_cancel_left,
      List.getD_eq_getElem?_getD]
  have get : ∀ (l : List Sym) (base : Sym) (n i : Nat), i < n →
      (l ++ newSyms base n)[l.length + i]? = some (base + i) := by
    intro l base n i hi
    rw [List.getElem?_append_right (by omega), Nat.add_sub_cancel_left]
    unfold newSyms
    rw [List.getElem?_map, List.getElem?_range hi]
    rfl
  constructor
  · intro i hi
    have := hR.parameters (o.model.p.length + i) (next + idx.length + i)
      (by rw [hc.p]; exact get _ _ _ _ hi) (by
        rw [hc.untouched.pOpt.1]
        intro hm
        have h₁ := hpo _ hm
        exact absurd (Nat.lt_of_le_of_lt (Nat.le_trans (Nat.le_add_right _ _) (Nat.le_add_right _ _)) h₁)
          (Nat.lt_irrefl next))
    rw [this, ← hp, right]
  · intro i hi
    have := hR.thetas (o.model.theta.length + i) (next + idx.length + idx.length + i)
      (by rw [hc.theta]; exact get _ _ _ _ hi) (by
        rw [hc.untouched.thetaOpt.1]
        intro hm
        have h₁ := hto _ hm
        exact absurd (Nat.lt_of_le_of_lt (Nat.le_trans (Nat.le_add_right _ _)
          (Nat.le_trans (Nat.le_add_right _ _) (Nat.le_add_right _ _))) h₁) (Nat.lt_irrefl next))
    rw [this, hθ, ← hth, right]

/-- What a decision and the corresponding decision of the relaxed problem have in common. -/
structure Core (ops : Expr.Ops K) (o : Ocp) (M : Mesh) (b : Blocks K) (ρ : Nat → K → Sym → K) : Prop where
  initial : ∀ e ∈ o.hInitial, e.eval ops (ρ 0 0) = 0
  continuous : ∀ el, el + 1 < M.elements → ∀ i < o.model.x.length,
    (statePoly M b el i).eval 1 = (statePoly M b (el + 1) i).eval 0
  dynamics : ∀ el < M.elements, ∀ tau ∈ inField M.roots, ∀ (i : Nat) (s : Sym) (e : Expr),
    o.model.x[i]? = some s → o.model.ode.get? s = some (some e) →
    (statePoly M b el i).derivative.eval tau = stepLength o M * e.eval ops (ρ el tau)
  inequalities : ∀ el < M.elements, ∀ (i : Nat) (e : Expr) (tag : String), o.gIneq[i]? = some e →
    o.timeGIneq[i]? = some tag → ∀ taus, pathPositions (inField M.roots) tag = some taus →
    ∀ tau ∈ taus, e.eval ops (ρ el tau) ≤ 0
  equalities : ∀ el < M.elements, ∀ (i : Nat) (e : Expr) (tag : String), o.gEq[i]? = some e →
    o.timeGEq[i]? = some tag → ∀ taus, pathPositions (inField M.roots) tag = some taus →
    ∀ tau ∈ taus, e.eval ops (ρ el tau) = 0
  final : ∀ e ∈ o.hFinal, e.eval ops (ρ (M.elements - 1) 1) = 0
  timeless : ∀ e ∈ o.h, e.eval ops (ρ (M.elements - 1) 1) = 0

/-- The cost state. -/
structure CostState (ops : Expr.Ops K) (o : Ocp) (M : Mesh) (b : Blocks K) (ρ : Nat → K → Sym → K) :
    Prop where
  start : (statePoly M b 0 o.model.x.length).eval 0 = 0
  continuous : ∀ el, el + 1 < M.elements →
    (statePoly M b el o.model.x.length).eval 1 = (statePoly M b (el + 1) o.model.x.length).eval 0
  running : ∀ el < M.elements, ∀ tau ∈ inField M.roots,
    (statePoly M b el o.model.x.length).derivative.eval tau = stepLength o M * o.L.eval ops (ρ el tau)

theorem rates_trivial (h : NoRateLimits o) (a c : K) (i : Nat) (lo hi : XRat) (hlo : o.duMin[i]? = some lo)
    (hhi : o.duMax[i]? = some hi) : (Ocp.boundValue lo : WithBot (WithTop K)) ≤ ((a - c : K) : WithTop K) ∧
      (((a - c : K) : WithTop K) : WithBot (WithTop K)) ≤ Ocp.boundValue hi := by
  rw [h.1 lo (List.mem_of_getElem? hlo), h.2 hi (List.mem_of_getElem? hhi)]
  refine ⟨?_, ?_⟩
  · exact bot_le
  · exact le_top

/-- A solution of the discretised problem in these parts. -/
theorem solution_iff (ops : Expr.Ops K) (hM : GoodMesh M) (hb : CollocationData (directDims o M) b)
    (hn : NoRateLimits o) (lastU : Option (List K)) (ρ : Nat → K → Sym → K) :
    DirectSolution ops o M b lastU ρ ↔ Core ops o M b ρ ∧ CostState ops o M b ρ ∧
      ∀ el < M.elements, ∀ tau ∈ inField M.roots, ∀ e ∈ o.model.alg, e.eval ops (ρ el tau) = 0 := by
  constructor
  · intro h
    have hcont := fun el he => (continuous_iff hM hb el he).1 (h.continuous el he)
    exact ⟨⟨h.initial, fun el he i hi => hcont el he i hi.le, h.dynamics, h.inequalities, h.equalities,
      h.final, h.timeless⟩, ⟨h.costStart, fun el he => hcont el he _ le_rfl, h.running⟩, h.algebraic⟩
  · rintro ⟨h, h', ha⟩
    refine ⟨h.initial, h'.start, fun el he => (continuous_iff hM hb el he).2 fun i hi => ?_, h.dynamics,
      h'.running, ha, h.inequalities, h.equalities, ?_, h.final, h.timeless⟩
    · rcases Nat.lt_or_ge i o.model.x.length with h₁ | h₁
      · exact h.continuous el he i h₁
      · obtain rfl : i = o.model.x.length := by omega
        exact h'.continuous el he
    · intro el _ before now _ _ i a c lo hi _ _ hlo hhi
      exact rates_trivial hn a c i lo hi hlo hhi

omit [IsStrictOrderedRing K] in
/-- The common part is the same for both problems. -/
theorem core_iff (ops : Expr.Ops K) (hc : Constructed roots degree idx vidx next o q)
    (hS : SameTrajectory o M vidx b b') (ρ : Nat → K → Sym → K) : Core ops q M b' ρ ↔ Core ops o M b ρ := by
  have hR := hc.relaxed
  have hst := step_eq (K := K) (M := M) hc
  constructor
  · intro h
    refine ⟨?_, ?_, ?_, ?_, ?_, ?_, ?_⟩
    · have := h.initial; rwa [hR.hInitial] at this
    · intro el he i hi
      rw [← hS.states el (by omega) i hi, ← hS.states (el + 1) he i hi]
      exact h.continuous el he i (by rw [hR.x]; exact hi)
    · intro el he tau ht i s e hs ho
      rw [← hS.states el he i (List.getElem?_eq_some_iff.1 hs).1, ← hst]
      exact h.dynamics el he tau ht i s e (by rw [hR.x]; exact hs) (by rw [hR.ode]; exact ho)
    · have := h.inequalities; rwa [hR.gIneq, hR.timeGIneq] at this
    · have := h.equalities; rwa [hR.gEq, hR.timeGEq] at this
    · have := h.final; rwa [hR.hFinal] at this
    · have := h.timeless; rwa [hR.h] at this
  · intro h
    refine ⟨?_, ?_, ?_, ?_, ?_, ?_, ?_⟩
    · rw [hR.hInitial]; exact h.initial
    · intro el he i hi
      rw [hR.x] at hi
      rw [hS.states el (by omega) i hi, hS.states (el + 1) he i hi]
      exact h.continuous el he i hi
    · intro el he tau ht i s e hs ho
      rw [hR.x] at hs
      rw [hR.ode] at ho
      rw [hS.states el he i (List.getElem?_eq_some_iff.1 hs).1, hst]
      exact h.dynamics el he tau ht i s e hs ho
    · rw [hR.gIneq, hR.timeGIneq]; exact h.inequalities
    · rw [hR.gEq, hR.timeGEq]; exact h.equalities
    · rw [hR.hFinal]; exact h.final
    · rw [hR.h]; exact h.timeless

/-! ## Bounds -/

theorem control_degree (hn : M.controlRoots.Nodup) (hc : 0 < M.controlRoots.length) (b : Blocks K) (el i : Nat) :
    (controlPoly M b el i).natDegree < M.controlRoots.length := by
  have := Transcription.through_degree (inField_nodup (K := K) hn) (b.u.getD el []) i
  by_cases h0 : controlPoly M b el i = 0
  · rw [h0, natDegree_zero]
    exact hc
  · have := (Polynomial.natDegree_lt_iff_degree_lt h0).2 this
    simpa [inField] using this

/-- A polynomial that is as smooth as a control has the same values at the points of the states and of
the controls. -/
theorem control_points (hM : GoodMesh M) (hm : ControlsMatch M) (P : K[X])
    (hP : P.natDegree < M.controlRoots.length) (Q : K → Prop) :
    (∀ tau ∈ (inField M.roots : List K), Q (P.eval tau)) ↔
      ∀ tau ∈ (inField M.controlRoots : List K), Q (P.eval tau) := by
  rcases hm with hm | hm
  · rw [hm]
  · rw [hm] at hP
    have hconst := Polynomial.eq_C_of_natDegree_eq_zero (show P.natDegree = 0 by omega)
    have hev : ∀ tau, P.eval tau = P.coeff 0 := by
      intro tau
      conv_lhs => rw [hconst]
      rw [eval_C]
    have hp := hM.points
    have n₁ : ∃ tau, tau ∈ (inField M.roots : List K) :=
      List.exists_mem_of_length_pos (by simp [inField]; omega)
    have n₂ : ∃ tau, tau ∈ (inField M.controlRoots : List K) :=
      List.exists_mem_of_length_pos (by simp [inField]; omega)
    simp only [hev]
    obtain ⟨t₁, h₁⟩ := n₁
    obtain ⟨t₂, h₂⟩ := n₂
    exact ⟨fun h _ _ => h t₁ h₁, fun h _ _ => h t₂ h₂⟩

/-- The bounds are the same for both problems. -/
theorem within_same (hc : Constructed roots degree idx vidx next o q) (h : Relaxable o idx vidx)
    (hM : GoodMesh M) (hn : M.controlRoots.Nodup) (hm : ControlsMatch M) (hB : BoundsFit o)
    (hS : SameTrajectory o M vidx b b')
    (hcost : o.positiveObjective = false ∨ ∀ el < M.elements,
      statePoly M b' el o.model.x.length = statePoly M b el o.model.x.length) :
    PolyWithin q M b' ↔ PolyWithin o M b := by
  have hR := hc.relaxed
  have hU := hc.untouched
  have lt : ∀ {α : Type} {l : List α} {i : Nat} {a : α}, l[i]? = some a → i < l.length := fun h =>
    (List.getElem?_eq_some_iff.1 h).1
  -- states
  have hx : ∀ el < M.elements, ∀ tau : K,
      EntryWithin (q.xMin ++ [if q.positiveObjective then XRat.fin 0 else ⊥]) (q.xMax ++ [⊤])
        (fun i => (statePoly M b' el i).eval tau) ↔
      EntryWithin (o.xMin ++ [if o.positiveObjective then XRat.fin 0 else ⊥]) (o.xMax ++ [⊤])
        (fun i => (statePoly M b el i).eval tau) := by
    intro el he tau
    rw [hR.xMin, hR.xMax, hU.positive]
    unfold EntryWithin
    refine forall_congr' fun i => forall_congr' fun lo => forall_congr' fun hi => imp_congr_right fun hlo =>
      imp_congr_right fun hhi => ?_
    have hi' := lt hlo
    rw [List.length_append, hB.x.lower, List.length_singleton] at hi'
    rcases Nat.lt_or_ge i o.model.x.length with h₁ | h₁
    · simp only [hS.states el he i h₁]
    · obtain rfl : i = o.model.x.length := by omega
      rcases hcost with hcost | hcost
      · rw [List.getElem?_append_right (by rw [hB.x.lower]), hB.x.lower, Nat.sub_self, hcost] at hlo
        rw [List.getElem?_append_right (by rw [hB.x.upper]), hB.x.upper, Nat.sub_self] at hhi
        cases hlo
        cases hhi
        exact ⟨fun _ => ⟨bot_le, le_top⟩, fun _ => ⟨bot_le, le_top⟩⟩
      · simp only [hcost el he]
  -- lower and upper bounds of the freed and the kept variables
  have hlo : ∀ ind : List Nat, (∀ i ∈ ind, i < o.model.y.length) → ∀ k : Nat,
      (entriesAt o.yMin ind)[k]? = ind[k]?.bind (fun i => o.yMin[i]?) ∧
      (entriesAt o.yMax ind)[k]? = ind[k]?.bind (fun i => o.yMax[i]?) := by
    intro ind hi k
    exact ⟨entriesAt_get _ _ (by rw [hB.y.lower]; exact hi) k, entriesAt_get _ _ (by rw [hB.y.upper]; exact hi) k⟩
  constructor
  · intro hw
    refine ⟨?_, ?_, ?_, ?_, ?_⟩
    · intro el he tau ht
      exact (hx el he tau).1 (hw.x el he tau ht)
    · intro el he tau ht i lo hi hl hu
      have hi' : i < o.model.y.length := by rw [← hB.y.lower]; exact lt hl
      rcases position_cases vidx hi' with ⟨k, hk⟩ | ⟨k, hk⟩
      · have hpt := (control_points (K := K) hM hm (controlPoly M b' el (o.model.u.length + k))
          (control_degree hn hM.controls _ _ _)
          fun v => (extended lo : WithBot (WithTop K)) ≤ finite v ∧ finite v ≤ extended hi).2 (by
          intro tau ht
          refine hw.u el he tau ht (o.model.u.length + k) lo hi ?_ ?_
          · rw [hR.uMin, List.getElem?_append_right (by rw [hB.u.lower]; omega), hB.u.lower,
              Nat.add_sub_cancel_left, (hlo vidx h.chosen.2 k).1, hk]
            exact hl
          · rw [hR.uMax, List.getElem?_append_right (by rw [hB.u.upper]; omega), hB.u.upper,
              Nat.add_sub_cancel_left, (hlo vidx h.chosen.2 k).2, hk]
            exact hu)
        rw [hS.freed el he k i hk] at hpt
        exact hpt tau ht
      · have := hw.y el he tau ht k lo hi (by rw [hR.yMin, otherEntries_get _ _ hB.y.lower, hk]; exact hl)
          (by rw [hR.yMax, otherEntries_get _ _ hB.y.upper, hk]; exact hu)
        simp only [hS.kept el he k i hk] at this
        exact this
    · intro el he tau ht i lo hi hl hu
      have hi' : i < o.model.u.length := by rw [← hB.u.lower]; exact lt hl
      have := hw.u el he tau ht i lo hi (by rw [hR.uMin, List.getElem?_append_left (lt hl), hl])
        (by rw [hR.uMax, List.getElem?_append_left (lt hu), hu])
      simp only [hS.controls el he i hi'] at this
      exact this
    · have := hw.pOpt
      rw [hU.pOpt.2.1, hU.pOpt.2.2, hS.pOpt] at this
      exact this
    · have := hw.thetaOpt
      rw [hU.thetaOpt.2.1, hU.thetaOpt.2.2, hS.thetaOpt] at this
      exact this
  · intro hw
    refine ⟨?_, ?_, ?_, ?_, ?_⟩
    · intro el he tau ht
      exact (hx el he tau).2 (hw.x el he tau ht)
    · intro el he tau ht k lo hi hl hu
      rw [hR.yMin, otherEntries_get _ _ hB.y.lower] at hl
      rw [hR.yMax, otherEntries_get _ _ hB.y.upper] at hu
      obtain ⟨i, hk, hl⟩ := Option.bind_eq_some_iff.1 hl
      rw [hk] at hu
      have hu : o.yMax[i]? = some hi := hu
      have := hw.y el he tau ht i lo hi hl hu
      simp only [hS.kept el he k i hk]
      exact this
    · intro el he tau ht j lo hi hl hu
      rw [hR.uMin] at hl
      rw [hR.uMax] at hu
      rcases Nat.lt_or_ge j o.model.u.length with h₁ | h₁
      · rw [List.getElem?_append_left (by rw [hB.u.lower]; exact h₁)] at hl
        rw [List.getElem?_append_left (by rw [hB.u.upper]; exact h₁)] at hu
        simp only [hS.controls el he j h₁]
        exact hw.u el he tau ht j lo hi hl hu
      · obtain ⟨k, rfl⟩ : ∃ k, j = o.model.u.length + k := ⟨j - o.model.u.length, by omega⟩
        rw [List.getElem?_append_right (by rw [hB.u.lower]; omega), hB.u.lower, Nat.add_sub_cancel_left,
          (hlo vidx h.chosen.2 k).1] at hl
        rw [List.getElem?_append_right (by rw [hB.u.upper]; omega), hB.u.upper, Nat.add_sub_cancel_left,
          (hlo vidx h.chosen.2 k).2] at hu
        obtain ⟨i, hk, hl⟩ := Option.bind_eq_some_iff.1 hl
        rw [hk] at hu
        have hu : o.yMax[i]? = some hi := hu
        have hpt := (control_points (K := K) hM hm (controlPoly M b' el (o.model.u.length + k))
          (control_degree hn hM.controls _ _ _)
          fun v => (extended lo : WithBot (WithTop K)) ≤ finite v ∧ finite v ≤ extended hi).1 (by
          intro tau ht
          rw [hS.freed el he k i hk]
          exact hw.y el he tau ht i lo hi hl hu)
        exact hpt tau ht
    · rw [hU.pOpt.2.1, hU.pOpt.2.2, hS.pOpt]; exact hw.pOpt
    · rw [hU.thetaOpt.2.1, hU.thetaOpt.2.2, hS.thetaOpt]; exact hw.thetaOpt

end
end Verif.RelaxDirect
