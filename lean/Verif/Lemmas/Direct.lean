import Verif.Model.Direct
import Verif.Model.Poly
import Verif.Lemmas.Indirect
import Verif.Spec.Direct
import Verif.Props.OcpCostState
/-! Lemmas for the direct method. -/
namespace Verif.Direct

theorem onProblem_ok {α : Type} {c : Py Ocp α} {s s' : Method} {a : α} :
    onProblem c s = (.ok a, s') ↔ ∃ o', c s.problem = (.ok a, o') ∧
      s' = { s with problem := o' } := by
  unfold onProblem
  constructor
  · intro h
    simp only [Prod.mk.injEq] at h
    exact ⟨_, Prod.ext h.1 rfl, h.2.symm⟩
  · rintro ⟨o', h, rfl⟩
    simp [h]

theorem polynomials_length (roots : List Rat) (tau base : Sym) (n d : Nat) :
    (polynomials roots tau base n d).length = n := by
  unfold polynomials
  split <;> simp

/-- The problem after the controls were replaced by polynomials. -/
def approximated (roots : List Rat) (degree : Nat) (base : Sym) (o : Ocp) : Ocp :=
  let u := o.model.u
  let pol := polynomials roots o.model.tau base u.length degree
  { o with
    L := o.L.subst u pol
    V := o.V.subst u pol
    S := o.S.subst u pol
    hInitial := o.hInitial.map (Expr.subst u pol)
    hFinal := o.hFinal.map (Expr.subst u pol)
    gIneq := o.gIneq.map (Expr.subst u pol)
    gEq := o.gEq.map (Expr.subst u pol)
    h := o.h.map (Expr.subst u pol)
    model := { o.model with
      uPar := newSyms base (u.length * degree)
      uExpr := pol.map (Expr.subst u pol)
      alg := o.model.alg.map (Expr.subst u pol)
      ode := if u.length > 0 then o.model.ode.map fun kv => (kv.1, SysModel.substSlot u pol kv.2)
        else o.model.ode } }

theorem parametrizeControl_run (roots : List Rat) (degree : Nat) (base : Sym) (s : Method) :
    parametrizeControl roots degree base s =
      (.ok (), { s with problem := approximated roots degree base s.problem }) := by
  simp only [parametrizeControl, controlApproximation, Py.bind_eq, Py.bind, Py.get,
    Py.modify, Py.pure, onProblem]
  rw [Ocp.replaceVariable_run, if_neg (by simp [polynomials_length])]
  simp [approximated, SysModel.replaceVariable, polynomials_length]

theorem basePrepare_ok {s s' : Method} (h : basePrepare s = (.ok (), s')) :
    s' = s ∧ (s.prepared = false → s.problem.preSolveCheck = .ok ()) := by
  obtain ⟨o', h₁, rfl⟩ := onProblem_ok.mp h
  unfold Indirect.basePrepare at h₁
  split at h₁
  · next hp =>
    simp only [Prod.mk.injEq] at h₁
    rw [← h₁.2]
    exact ⟨rfl, fun hh => by rw [hp] at hh; cases hh⟩
  · simp only [Prod.mk.injEq] at h₁
    rw [← h₁.2]
    exact ⟨rfl, fun _ => h₁.1⟩

theorem addCostState_ok {xc fresh : Sym} {s s' : Method} :
    addCostState xc fresh s = (.ok (), s') ↔ ∃ o', s.problem.createCostState xc fresh = (.ok (), o') ∧
      s' = { s with
        hasCostState := true
        problem := { o' with V := .add o'.V (.sym xc) } } := by
  simp only [addCostState, Py.bind_eq, Py.bind_eq_ok, onProblem_ok, Py.modify_ok]
  constructor
  · rintro ⟨⟨⟩, s₁, ⟨o', h₁, rfl⟩, ⟨⟩, s₂, h₂, rfl⟩
    exact ⟨o', h₁, by rw [h₂]⟩
  · rintro ⟨o', h₁, rfl⟩
    exact ⟨(), _, ⟨o', h₁, rfl⟩, (), _, rfl, rfl⟩

/-- A successful first preparation. -/
theorem prepare_first {roots : List Rat} {degree : Nat} {xc fresh base : Sym} {s s' : Method}
    (hc : s.hasCostState = false) (h : prepare roots degree xc fresh base s = (.ok (), s')) :
    ∃ o₁, s.problem.createCostState xc fresh = (.ok (), o₁) ∧
      s' = { s with
        hasCostState := true
        problem := approximated roots degree base { o₁ with V := .add o₁.V (.sym xc) } } := by
  simp only [prepare, Py.bind_eq, Py.bind_eq_ok] at h
  obtain ⟨⟨⟩, s₁, h₁, ⟨⟩, s₂, h₂, h₃⟩ := h
  obtain ⟨rfl, -⟩ := basePrepare_ok h₁
  unfold createCostState at h₂
  rw [if_neg (by simp [hc])] at h₂
  obtain ⟨o', h₄, rfl⟩ := addCostState_ok.mp h₂
  rw [parametrizeControl_run] at h₃
  simp only [Prod.mk.injEq] at h₃
  exact ⟨o', h₄, h₃.2.symm⟩

/-- A successful later preparation. -/
theorem prepare_again {roots : List Rat} {degree : Nat} {xc fresh base : Sym} {s s' : Method}
    (hc : s.hasCostState = true) (h : prepare roots degree xc fresh base s = (.ok (), s')) :
    s' = { s with problem := approximated roots degree base s.problem } := by
  simp only [prepare, Py.bind_eq, Py.bind_eq_ok] at h
  obtain ⟨⟨⟩, s₁, h₁, ⟨⟩, s₂, h₂, h₃⟩ := h
  obtain ⟨rfl, -⟩ := basePrepare_ok h₁
  unfold createCostState at h₂
  rw [if_pos hc] at h₂
  cases h₂
  rw [parametrizeControl_run] at h₃
  simp only [Prod.mk.injEq] at h₃
  exact h₃.2.symm

theorem approximated_ode (roots : List Rat) (degree : Nat) (base : Sym) (o : Ocp) (s : Sym)
    (e : Expr) (h : o.model.ode.get? s = some (some e)) :
    (approximated roots degree base o).model.ode.get? s = some (some
      (e.subst o.model.u (polynomials roots o.model.tau base o.model.u.length degree))) := by
  simp only [approximated]
  split
  · rw [Dict.get?_map_snd, h]; rfl
  · next hu =>
    have : o.model.u = [] := List.length_eq_zero_iff.mp (Nat.eq_zero_of_not_pos hu)
    rw [h, this]
    simp only [Expr.subst]
    rw [Expr.mapSyms_id _ e fun r _ => Expr.replacementOf_not_mem [] _ r (by simp)]

/-- The value of a replaced expression. -/
theorem eval_approximated {K : Type} [Field K] (ops : Expr.Ops K) (roots : List Rat) (degree : Nat)
    (base tau : Sym) (u : List Sym) (hu : u.Nodup) (ρ ρ' : Sym → K)
    (h : Spec.MovedTo ops u (polynomials roots tau base u.length degree) ρ ρ') (e : Expr) :
    (e.subst u (polynomials roots tau base u.length degree)).eval ops ρ = e.eval ops ρ' :=
  Expr.eval_subst ops ρ ρ' u _ hu (polynomials_length ..).symm h.1 h.2 e

/-- The symbols of the polynomials: the pseudo time and the new points. -/
theorem syms_polynomials (roots : List Rat) (tau base : Sym) (n degree : Nat)
    (hr : degree ≠ 1 → roots.length = degree) (e : Expr)
    (he : e ∈ polynomials roots tau base n degree) (s : Sym) (hs : s ∈ e.syms) :
    s = tau ∨ s ∈ newSyms base (n * degree) := by
  have hp : ∀ i j, i < n → j < degree → point base n i j ∈ newSyms base (n * degree) := by
    intro i j hi hj
    refine List.mem_map.mpr ⟨j * n + i, List.mem_range.mpr ?_, rfl⟩
    calc j * n + i < j * n + n := by omega
      _ = n * (j + 1) := by ring
      _ ≤ n * degree := Nat.mul_le_mul_left n hj
  have hfold : ∀ (l : List Expr) (a : Expr) (s : Sym), s ∈ (l.foldl Expr.add a).syms →
      s ∈ a.syms ∨ ∃ e ∈ l, s ∈ e.syms := by
    intro l
    induction l with
    | nil => intro a s h; exact .inl h
    | cons b l ih =>
      intro a s h
      rcases ih _ _ h with h | ⟨e, h₁, h₂⟩
      · rcases List.mem_append.mp h with h | h
        · exact .inl h
        · exact .inr ⟨b, by simp, h⟩
      · exact .inr ⟨e, by simp [h₁], h₂⟩
  have hell : ∀ (l : List (Rat × Nat)) (rj : Rat × Nat) (a : Expr) (s : Sym),
      s ∈ (l.foldl (fun ell rk => if rk.2 ≠ rj.2 then
        Expr.mul ell (.div (.sub (.sym tau) (.const rk.1)) (.sub (.const rj.1) (.const rk.1)))
        else ell) a).syms → s ∈ a.syms ∨ s = tau := by
    intro l rj
    induction l with
    | nil => intro a s h; exact .inl h
    | cons b l ih =>
      intro a s h
      rw [List.foldl_cons] at h
      rcases ih _ _ h with h | h
      · split at h
        · simpa [Expr.syms] using h
        · exact .inl h
      · exact .inr h
  unfold polynomials at he
  split at he
  · next hd =>
    obtain ⟨i, hi, rfl⟩ := List.mem_map.mp he
    simp only [Expr.syms, List.mem_singleton] at hs
    subst hs
    exact .inr (hp i 0 (List.mem_range.mp hi) (by omega))
  · next hd =>
    obtain ⟨i, hi, rfl⟩ := List.mem_map.mp he
    rcases hfold _ _ _ hs with h | ⟨e', he', hs'⟩
    · simp [Expr.syms] at h
    · obtain ⟨⟨l, j⟩, hlj, rfl⟩ := List.mem_map.mp he'
      obtain ⟨h₁, h₂⟩ := List.mem_zipIdx' hlj
      have hlen : (basisExpr roots tau).length = degree := by
        simp [basisExpr, hr hd]
      simp only [Expr.syms, List.mem_append, List.mem_singleton] at hs'
      rcases hs' with h | rfl
      · rw [h₂] at h
        simp only [basisExpr, List.getElem_map] at h
        rcases hell _ _ _ _ h with h | h
        · simp [Expr.syms] at h
        · exact .inl h
      · exact .inr (hp i j (List.mem_range.mp hi) (by omega))

theorem createCostState_model {xc fresh : Sym} {o o' : Ocp}
    (h : o.createCostState xc fresh = (.ok (), o')) : ∃ x x0 ode, o'.model = { o.model with
      x := x
      x0 := x0
      ode := ode } := by
  obtain ⟨o₂, h₂, rfl⟩ := Ocp.createCostState_ok_iff.mp h
  obtain ⟨-, lo, hi, m', hh, -, -, -, -, -, h₆, -, rfl⟩ := Ocp.includeState_ok_iff.mp h₂
  obtain ⟨-, -, -, -, rfl⟩ := (SysModel.includeState_ok_iff ..).mp h₆
  exact ⟨_, _, _, rfl⟩

theorem createCostState_tau {xc fresh : Sym} {o o' : Ocp}
    (h : o.createCostState xc fresh = (.ok (), o')) : o'.model.tau = o.model.tau := by
  obtain ⟨x, x0, ode, h⟩ := createCostState_model h
  rw [h]

/-- After the controls were replaced, replacing them again does nothing. -/
theorem subst_again (roots : List Rat) (degree : Nat) (base tau : Sym) (u : List Sym) (n : Nat)
    (hn : degree ≠ 1 → roots.length = degree) (htau : tau ∉ u) (hb : ∀ v ∈ u, v < base)
    (w : List Expr) (e : Expr) (hl : u.length = n := by rfl) :
    (e.subst u (polynomials roots tau base n degree)).subst u w =
      e.subst u (polynomials roots tau base n degree) := by
  refine Expr.subst_eq_self u w _ fun v hv hs => ?_
  rcases Expr.mem_syms_subst u _ (by rw [polynomials_length, hl]) e v hs with h | ⟨r, hr, h⟩
  · exact h.2 hv
  · rcases syms_polynomials roots tau base n degree hn r hr v h with rfl | h
    · exact htau hv
    · obtain ⟨k, -, rfl⟩ := List.mem_map.mp h
      exact absurd (hb _ hv) (Nat.not_lt.mpr (Nat.le_add_right base k))

theorem lagrangeExpr_eval {K : Type} [Field K] (ops : Expr.Ops K) (ρ : Sym → K) (tau : Sym) (nodes : List (Rat × Nat))
    (rj : Rat × Nat) : (lagrangeExpr nodes tau rj).eval ops ρ =
      lagrangeFactor (nodes.map fun q => ((q.1 : K), q.2)) (ρ tau) ((rj.1 : K), rj.2) := by
  unfold lagrangeExpr lagrangeFactor
  have : ∀ (l : List (Rat × Nat)) (e : Expr) (a : K), e.eval ops ρ = a →
      (l.foldl (fun ell rk => if rk.2 ≠ rj.2 then
        Expr.mul ell (.div (.sub (.sym tau) (.const rk.1)) (.sub (.const rj.1) (.const rk.1)))
        else ell) e).eval ops ρ =
      (l.map fun q => ((q.1 : K), q.2)).foldl (fun ell rk => if rk.2 ≠ rj.2 then
        ell * ((ρ tau - rk.1) / ((rj.1 : K) - rk.1)) else ell) a := by
    intro l
    induction l with
    | nil => intro e a h; exact h
    | cons b l ih =>
      intro e a h
      simp only [List.foldl_cons, List.map_cons]
      apply ih
      split <;> simp [Expr.eval, h]
  exact this nodes (.const 1) 1 (by simp [Expr.eval])

theorem polynomials_eval {K : Type} [Field K] (ops : Expr.Ops K) (roots : List Rat) (tau base : Sym) (n degree : Nat)
    (ρ : Sym → K) :
    polyApproxMethod (roots.map (Rat.cast : Rat → K)) n degree false
      (fun i j => ρ (point base n i j)) (ρ tau) =
      .ok ((polynomials roots tau base n degree).map (Expr.eval ops ρ)) := by
  unfold polyApproxMethod polynomials
  split
  · simp [Expr.eval]
  · simp only [Bool.false_eq_true, if_false, List.map_map, Except.ok.injEq]
    refine List.map_congr_left fun i hi => ?_
    have hfold : ∀ (l : List Expr) (e : Expr), (l.foldl Expr.add e).eval ops ρ =
        e.eval ops ρ + (l.map (Expr.eval ops ρ)).sum := by
      intro l
      induction l with
      | nil => intro e; simp
      | cons b l ih => intro e; simp [ih, Expr.eval, add_assoc]
    simp only [Function.comp, hfold]
    unfold polyRow
    simp only [Expr.eval, Rat.cast_zero, zero_add, List.map_map]
    have hb : lagrangeBasisMethod (roots.map (Rat.cast : Rat → K)) 1 (ρ tau) =
        (basisExpr roots tau).map (Expr.eval ops ρ) := by
      unfold lagrangeBasisMethod basisExpr
      simp only [List.map_map]
      have hz : (((0 : K) :: roots.map (Rat.cast : Rat → K)).zipIdx.drop 1) =
          (((0 : Rat) :: roots).zipIdx.drop 1).map fun q => ((q.1 : K), q.2) := by
        rw [List.zipIdx_cons, List.zipIdx_cons, List.drop_succ_cons, List.drop_succ_cons,
          List.drop_zero, List.drop_zero, List.zipIdx_map]
        rfl
      rw [hz, List.map_map]
      refine List.map_congr_left fun q _ => ?_
      simp only [Function.comp, lagrangeExpr_eval]
    rw [hb, List.zipIdx_map, List.map_map]
    rfl

/-- Every point of a control occurs in its polynomial. -/
theorem point_mem_syms (roots : List Rat) (tau base : Sym) (n degree i j : Nat) (hi : i < n)
    (hn : degree ≠ 1 → roots.length = degree) (hj : j < degree) :
    point base n i j ∈ ((polynomials roots tau base n degree)[i]'(by
      rw [polynomials_length]; exact hi)).syms := by
  have hfold : ∀ (l : List Expr) (a : Expr) (s : Sym), (s ∈ a.syms ∨ ∃ e ∈ l, s ∈ e.syms) →
      s ∈ (l.foldl Expr.add a).syms := by
    intro l
    induction l with
    | nil => intro a s h; simpa using h
    | cons b l ih =>
      intro a s h
      apply ih
      simp only [Expr.syms, List.mem_append]
      rcases h with h | ⟨e, he, h⟩
      · exact .inl (.inl h)
      · rcases List.mem_cons.mp he with rfl | he
        · exact .inl (.inr h)
        · exact .inr ⟨e, he, h⟩
  unfold polynomials
  split
  · next hd =>
    have : j = 0 := by omega
    subst this
    simp [Expr.syms]
  · next hd =>
    have hlen : (basisExpr roots tau).length = degree := by simp [basisExpr, hn hd]
    simp only [List.getElem_map, List.getElem_range]
    refine hfold _ _ _ (.inr ⟨_, List.mem_map.mpr ⟨((basisExpr roots tau)[j]'(by omega), j), ?_, rfl⟩,
      by simp [Expr.syms]⟩)
    rw [List.mem_zipIdx_iff_getElem?]
    simp [hlen, hj]

theorem maybeCostState_controls {c : Bool} {xc fresh : Sym} {o o' : Ocp}
    (h : Indirect.maybeCostState c xc fresh o = (.ok (), o')) :
    o'.model.u = o.model.u ∧ o'.model.parametrized = o.model.parametrized := by
  unfold Indirect.maybeCostState at h
  split at h
  · obtain ⟨x, x0, ode, hm⟩ := createCostState_model h
    rw [hm]
    exact ⟨rfl, rfl⟩
  · cases h
    exact ⟨rfl, rfl⟩

/-- The indirect method registers every control as parametrised, and refuses when one is. -/
theorem indirect_prepare_controls {B : Backend} {c p : Bool} {base xc fresh : Sym} {o o' : Ocp}
    (h : Indirect.prepare B c p base xc fresh o = (.ok (), o')) :
    o'.model.u = o.model.u ∧ (∀ v ∈ o.model.u, v ∈ o'.model.parametrized) ∧
    (∀ v ∈ o.model.u, v ∉ o.model.parametrized) ∧ o.model.u ≠ [] := by
  simp only [Indirect.prepare, Py.bind_eq, Py.bind_eq_ok] at h
  obtain ⟨⟨⟩, o₁, h₁, H, o₂, h₂, ⟨⟩, o₃, h₃, o₄, o₅, h₄, us, o₆, h₅, h₆⟩ := h
  have e₁ : o₁ = o := by
    unfold Indirect.basePrepare at h₁
    split at h₁ <;> exact (Prod.mk.inj h₁).2.symm
  subst e₁
  obtain ⟨-, -, -, e₂⟩ := createAdjointStates_ok h₂
  obtain ⟨hu₃, hp₃⟩ := maybeCostState_controls h₃
  have hu₂ : o₂.model.u = o₁.model.u := by rw [e₂]
  have hp₂ : o₂.model.parametrized = o₁.model.parametrized := by rw [e₂]
  obtain ⟨e₄, e₅⟩ : o₄ = o₃ ∧ o₅ = o₃ := by
    simp only [Py.get, Prod.mk.injEq, Except.ok.injEq] at h₄
    exact ⟨h₄.1.symm, h₄.2.symm⟩
  have e₆ : o₃ = o₆ := by
    simp only [Py.lift, Prod.mk.injEq] at h₅
    rw [← e₅]
    exact h₅.2
  subst e₄ e₅ e₆
  obtain ⟨m', h₇, h₈⟩ := Ocp.parametrizeControl_ok_iff.mp h₆
  rw [SysModel.parametrize_run] at h₇
  split at h₇
  · cases h₇
  split at h₇
  · cases h₇
  next hreg =>
  split at h₇
  · cases h₇
  next hpar =>
  rw [not_not] at hreg hpar
  obtain ⟨v, hv, -⟩ := hpar
  have hm' : m'.u = o₅.model.u ∧ m'.parametrized = o₅.model.parametrized ++ o₅.model.u := by
    unfold SysModel.replaceVariable at h₇
    split at h₇
    · cases h₇
    · rw [← (Prod.mk.inj h₇).2]
      exact ⟨rfl, rfl⟩
  have ho' : o'.model.u = m'.u ∧ o'.model.parametrized = m'.parametrized := by
    rw [Ocp.replaceVariable_run] at h₈
    split at h₈
    · cases h₈
    · rw [← (Prod.mk.inj h₈).2]
      simp [SysModel.replaceVariable]
      split <;> exact ⟨rfl, rfl⟩
  have hu : o₅.model.u = o₁.model.u := hu₃.trans hu₂
  refine ⟨by rw [ho'.1, hm'.1, hu], fun w hw => ?_, fun w hw => ?_, fun h => ?_⟩
  · rw [ho'.2, hm'.2, hu]
    exact List.mem_append_right _ hw
  · have := hreg.2 w (hu ▸ hw)
    rwa [hp₃, hp₂] at this
  · rw [hu, h] at hv
    cases hv

/-- A trajectory of the problem with replaced controls is one of the problem, with the controls at
the values of their replacements. -/
theorem trajectory_approximated (ops : Expr.Ops ℝ) (roots : List Rat) (degree : Nat) (base : Sym)
    (o : Ocp) (X X' : ℝ → Sym → ℝ) (t0 tf : ℝ) (hu : o.model.u.Nodup)
    (hx : ∀ v ∈ o.model.x, v ∉ o.model.u) (hx0 : ∀ v ∈ o.model.x0, v ∉ o.model.u)
    (hX : Spec.OcpTrajectory ops (approximated roots degree base o) X t0 tf)
    (hX' : ∀ t, Spec.MovedTo ops o.model.u
      (polynomials roots o.model.tau base o.model.u.length degree) (X t) (X' t)) :
    Spec.OcpTrajectory ops o X' t0 tf where
  ode := by
    intro t ht s hs e he
    have := hX.ode t ht s hs _ (approximated_ode roots degree base o s e he)
    rw [eval_approximated ops roots degree base _ _ hu _ _ (hX' t) e] at this
    have hf : (fun τ => X' τ s) = fun τ => X τ s := funext fun τ => (hX' τ).2 s (hx s hs)
    rwa [hf]
  init := by
    intro e he
    have := hX.init _ (List.mem_map.mpr ⟨e, he, rfl⟩)
    rwa [eval_approximated ops roots degree base _ _ hu _ _ (hX' t0) e] at this
  value := by
    intro p hp
    rw [(hX' t0).2 p.1 (hx0 _ (List.of_mem_zip hp).1)]
    exact hX.value p hp

/-- A trajectory of a problem with an additional cost state is one of the problem. -/
theorem trajectory_costState (ops : Expr.Ops ℝ) (xc fresh : Sym) (o o₁ o₂ : Ocp)
    (h : o.createCostState xc fresh = (.ok (), o₁)) (hl : o.x0.length = o.model.x0.length)
    (hm : o₂.model = o₁.model) (hI : o₂.hInitial = o₁.hInitial) (h0 : o₂.x0 = o₁.x0)
    (X : ℝ → Sym → ℝ) (t0 tf : ℝ) (hX : Spec.OcpTrajectory ops o₂ X t0 tf) :
    Spec.OcpTrajectory ops o X t0 tf := by
  obtain ⟨-, hx, -, hne, hx0, hmx0, hI', -⟩ := C41_added xc fresh o o₁ h
  have hk : xc ∉ o.model.ode.keys := by
    obtain ⟨o₂, h₂, rfl⟩ := Ocp.createCostState_ok_iff.mp h
    obtain ⟨-, lo, hi, m', hh, -, -, -, -, -, h₆, -, rfl⟩ := Ocp.includeState_ok_iff.mp h₂
    obtain ⟨-, -, hk, -, rfl⟩ := (SysModel.includeState_ok_iff ..).mp h₆
    exact hk xc (by simp)
  refine ⟨fun t ht s hs e he => ?_, fun e he => ?_, fun p hp => ?_⟩
  · refine hX.ode t ht s (by rw [hm, hx]; simp [hs]) e ?_
    have : s ≠ xc := by
      rintro rfl
      rw [(Dict.get?_eq_none_iff ..).mpr hk] at he
      cases he
    rw [hm, hne s this, he]
  · exact hX.init e (by rw [hI, hI']; simp [he])
  · refine hX.value p ?_
    rw [hm, h0, hx0, hmx0, List.zip_append hl.symm]
    exact List.mem_append_left _ hp

theorem createCostState_ode {xc fresh : Sym} {o o' : Ocp}
    (h : o.createCostState xc fresh = (.ok (), o')) :
    o'.model.ode = o.model.ode ++ [(xc, some o.L)] := by
  obtain ⟨o₂, h₂, rfl⟩ := Ocp.createCostState_ok_iff.mp h
  obtain ⟨-, lo, hi, m', hh, -, -, -, -, -, h₆, -, rfl⟩ := Ocp.includeState_ok_iff.mp h₂
  obtain ⟨-, -, hk, -, rfl⟩ := (SysModel.includeState_ok_iff ..).mp h₆
  exact update_fresh_slots o.model.ode [xc] [some o.L] (by simp) hk rfl

theorem expressions_approximated (roots : List Rat) (degree : Nat) (base : Sym) (o : Ocp) (e : Expr)
    (he : e ∈ Spec.expressions (approximated roots degree base o)) :
    ∃ e₀ ∈ Spec.expressions o, e = e₀.subst o.model.u
      (polynomials roots o.model.tau base o.model.u.length degree) := by
  simp only [Spec.expressions, approximated, List.mem_append, List.mem_cons, List.not_mem_nil,
    or_false, List.mem_map, List.mem_filterMap] at he ⊢
  rcases he with (((((rfl | rfl) | ⟨e₀, h, rfl⟩) | ⟨e₀, h, rfl⟩) | ⟨e₀, h, rfl⟩) | ⟨e₀, h, rfl⟩) |
    ⟨p, hp, h⟩
  · exact ⟨_, .inl (.inl (.inl (.inl (.inl (.inl rfl))))), rfl⟩
  · exact ⟨_, .inl (.inl (.inl (.inl (.inl (.inr rfl))))), rfl⟩
  · exact ⟨_, .inl (.inl (.inl (.inl (.inr h)))), rfl⟩
  · exact ⟨_, .inl (.inl (.inl (.inr h))), rfl⟩
  · exact ⟨_, .inl (.inl (.inr h)), rfl⟩
  · exact ⟨_, .inl (.inr h), rfl⟩
  · split at hp
    · obtain ⟨q, hq, rfl⟩ := List.mem_map.mp hp
      obtain ⟨k, so⟩ := q
      cases so with
      | none => cases h
      | some e₀ =>
        cases h
        exact ⟨e₀, .inr ⟨_, hq, rfl⟩, rfl⟩
    · next hu =>
      refine ⟨e, .inr ⟨p, hp, h⟩, ?_⟩
      have : o.model.u = [] := List.length_eq_zero_iff.mp (Nat.eq_zero_of_not_pos hu)
      rw [this, Expr.subst_eq_self [] _ e (by simp)]

end Verif.Direct
