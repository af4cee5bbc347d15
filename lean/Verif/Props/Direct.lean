import Verif.Lemmas.Direct
import Verif.Spec.Direct
import Verif.Props.OcpCostState
import Verif.Props.Indirect
/-!
# C86, C130–C132: the direct method
-/
namespace Verif
open Spec Direct MeasureTheory

/-- C86. Preparing a direct method adds one state, and the final cost it will minimise is, on every
exact trajectory of the prepared problem, the user's final cost plus the accumulated running cost,
both evaluated with the controls given by their polynomials (`X'`). -/
theorem C86_objective (roots : List Rat) (degree : Nat) (xc fresh base : Sym) (s s' : Method)
    (hc : s.hasCostState = false) (hr : prepare roots degree xc fresh base s = (.ok (), s'))
    (hl : s.problem.x0.length = s.problem.model.x0.length) (hu : s.problem.model.u.Nodup)
    (hxc : xc ∉ s.problem.model.u) (hfr : fresh ∉ s.problem.model.u)
    (ops : Expr.Ops ℝ) (X X' : ℝ → Sym → ℝ) (t0 tf : ℝ) (hX : OcpTrajectory ops s'.problem X t0 tf)
    (hX' : ∀ t, MovedTo ops s.problem.model.u
      (polynomials roots s.problem.model.tau base s.problem.model.u.length degree) (X t) (X' t))
    (hint : IntervalIntegrable (fun t => s.problem.L.eval ops (X' t)) volume t0 tf) :
    s'.problem.model.x = s.problem.model.x ++ [xc] ∧
    s'.problem.V.eval ops (X tf) =
      s.problem.V.eval ops (X' tf) + ∫ t in t0..tf, s.problem.L.eval ops (X' t) := by
  obtain ⟨o₁, h₁, rfl⟩ := prepare_first hc hr
  obtain ⟨-, hx, he, -, h0, hx0, hI, -, -, -, hu', -, hV⟩ := C41_added xc fresh s.problem o₁ h₁
  have htau : o₁.model.tau = s.problem.model.tau := by
    obtain ⟨o₂, h₂, rfl⟩ := Ocp.createCostState_ok_iff.mp h₁
    obtain ⟨-, lo, hi, m', hh, -, -, -, -, -, h₆, -, rfl⟩ := Ocp.includeState_ok_iff.mp h₂
    obtain ⟨-, -, -, -, rfl⟩ := (SysModel.includeState_ok_iff ..).mp h₆
    rfl
  have hev : ∀ t (e : Expr), (e.subst o₁.model.u (polynomials roots o₁.model.tau base
      o₁.model.u.length degree)).eval ops (X t) = e.eval ops (X' t) := by
    intro t e
    rw [hu', htau]
    exact eval_approximated ops roots degree base _ _ hu _ _ (hX' t) e
  have hode : ∀ t ∈ Set.uIcc t0 tf, HasDerivAt (fun τ => X τ xc) (s.problem.L.eval ops (X' t)) t := by
    intro t ht
    have := hX.ode t ht xc (by simp [approximated, hx]) _
      (approximated_ode roots degree base { o₁ with V := .add o₁.V (.sym xc) } xc s.problem.L he)
    rwa [hev] at this
  have hfr0 : X t0 fresh = 0 := by
    have := hX.value (fresh, 0) (by
      simp only [approximated]
      rw [hx0, h0, List.zip_append hl.symm]
      simp)
    simpa using this
  have hxc0 : X t0 xc = 0 := by
    have := hX.init ((Expr.sub (.sym fresh) (.sym xc)).subst o₁.model.u
      (polynomials roots o₁.model.tau base o₁.model.u.length degree)) (by
        simp only [approximated, hI, List.map_append]
        simp)
    rw [hev] at this
    simp only [Expr.eval] at this
    rw [(hX' t0).2 _ hfr, (hX' t0).2 _ hxc, hfr0] at this
    linarith
  refine ⟨by simp [approximated, hx], ?_⟩
  simp only [approximated]
  rw [hev]
  simp only [Expr.eval]
  rw [(hX' tf).2 _ hxc, intervalIntegral.integral_eq_sub_of_hasDerivAt hode hint, hxc0, sub_zero, hV]

/-- C86. A second preparation adds no state and leaves the final cost as it is. -/
theorem C86_once (roots : List Rat) (degree : Nat) (xc fresh base xc₂ fresh₂ base₂ : Sym)
    (s s' s'' : Method) (hc : s.hasCostState = false)
    (hr : prepare roots degree xc fresh base s = (.ok (), s'))
    (hr' : prepare roots degree xc₂ fresh₂ base₂ s' = (.ok (), s''))
    (hn : degree ≠ 1 → roots.length = degree)
    (htau : s.problem.model.tau ∉ s.problem.model.u) (hb : ∀ v ∈ s.problem.model.u, v < base) :
    s''.problem.model.x = s'.problem.model.x ∧ s''.problem.V = s'.problem.V := by
  obtain ⟨o₁, h₁, rfl⟩ := prepare_first hc hr
  rw [prepare_again (by rfl) hr']
  obtain ⟨-, -, -, -, -, -, -, -, -, -, hu', -, -⟩ := C41_added xc fresh s.problem o₁ h₁
  refine ⟨rfl, ?_⟩
  simp only [approximated]
  exact subst_again roots degree base _ _ _ hn (by rw [hu', createCostState_tau h₁]; exact htau)
    (by rw [hu']; exact hb) _ _

/-- C86. In the prepared problem the controls are the interpolation polynomials, in the pseudo time of
an element, through parameters that belong to one control and one point each. -/
theorem C86_controls (ops : Expr.Ops ℝ) (roots : List Rat) (tau base : Sym) (n degree : Nat)
    (ρ : Sym → ℝ) :
    polyApproxMethod (roots.map (Rat.cast : Rat → ℝ)) n degree false
      (fun i j => ρ (point base n i j)) (ρ tau) =
      .ok ((polynomials roots tau base n degree).map (Expr.eval ops ρ)) ∧
    ∀ i i' j j', i < n → i' < n → point base n i j = point base n i' j' → i = i' ∧ j = j' := by
  refine ⟨polynomials_eval ops roots tau base n degree ρ, ?_⟩
  intro i i' j j' hi hi' h
  have h : j * n + i = j' * n + i' := Nat.add_left_cancel h
  have hn : 0 < n := Nat.zero_lt_of_lt hi
  have h₁ := congrArg (· % n) h
  have h₂ := congrArg (· / n) h
  simp only [Nat.mul_comm _ n, Nat.mul_add_mod, Nat.mod_eq_of_lt hi, Nat.mod_eq_of_lt hi'] at h₁
  rw [Nat.mul_comm j, Nat.mul_comm j', Nat.mul_add_div hn, Nat.mul_add_div hn, Nat.div_eq_of_lt hi,
    Nat.div_eq_of_lt hi'] at h₂
  exact ⟨h₁, h₂⟩

/-! ## C130 -/

/-- C130, the part that holds: `solve` prepares the method once; and for a problem without controls
an explicit preparation before `solve` makes no difference. -/
theorem C130_partial (roots : List Rat) (degree : Nat) (xc fresh base xc₂ fresh₂ base₂ : Sym)
    (s s' s'' : Method) :
    (solvePreparation roots degree xc fresh base s = (.ok (), s') →
      solvePreparation roots degree xc₂ fresh₂ base₂ s' = (.ok (), s')) ∧
    (s.hasCostState = false → s.prepared = false → s.problem.model.u = [] →
      prepare roots degree xc fresh base s = (.ok (), s') →
      solvePreparation roots degree xc₂ fresh₂ base₂ s' = (.ok (), s'') →
      s''.problem = s'.problem) := by
  constructor
  · intro h
    have hp : s'.prepared = true := by
      unfold solvePreparation at h
      split at h
      · next hp => cases h; exact hp
      · simp only [prepareAndMark, Py.bind_eq, Py.bind_eq_ok, Py.modify_ok] at h
        obtain ⟨⟨⟩, s₁, -, -, rfl⟩ := h
        rfl
    unfold solvePreparation
    rw [if_pos hp]
  · intro hc hp hu h h'
    obtain ⟨o₁, h₁, rfl⟩ := prepare_first hc h
    obtain ⟨-, -, -, -, -, -, -, -, -, -, hu', -, -⟩ := C41_added xc fresh s.problem o₁ h₁
    unfold solvePreparation at h'
    rw [if_neg (by simp [hp])] at h'
    simp only [prepareAndMark, Py.bind_eq, Py.bind_eq_ok, Py.modify_ok] at h'
    obtain ⟨⟨⟩, s₁, h₂, -, rfl⟩ := h'
    rw [prepare_again (by rfl) h₂]
    have he : o₁.model.u = [] := by rw [hu', hu]
    have hs : ∀ (w : List Expr) (e : Expr), e.subst [] w = e :=
      fun w e => Expr.subst_eq_self [] w e (by simp)
    have hp₀ : ∀ b, polynomials roots o₁.model.tau b 0 degree = [] :=
      fun b => List.length_eq_zero_iff.mp (polynomials_length ..)
    have hm : ∀ (w : List Expr) (l : List Expr), l.map (Expr.subst [] w) = l := by
      intro w l
      conv_rhs => rw [← List.map_id l]
      exact List.map_congr_left fun e _ => hs w e
    simp [approximated, he, hs, hm, hp₀, newSyms]

/-- C130 fails for the direct method: after an explicit preparation, the preparation done by `solve`
lists new parameters as the decision variables of the controls, but the constraints (and every other
expression with a control) still contain the parameters of the first one, which are no variables of
the problem any more. -/
theorem C130_direct_fails (roots : List Rat) (degree : Nat) (xc fresh base xc₂ fresh₂ base₂ : Sym)
    (s s' s'' : Method) (hc : s.hasCostState = false) (hp : s.prepared = false)
    (hr : prepare roots degree xc fresh base s = (.ok (), s'))
    (hr' : solvePreparation roots degree xc₂ fresh₂ base₂ s' = (.ok (), s''))
    (hn : degree ≠ 1 → roots.length = degree) (hd : 0 < degree)
    (htau : s.problem.model.tau ∉ s.problem.model.u) (hu : s.problem.model.u.Nodup)
    (hb : ∀ l ∈ s.problem.model.allSym, ∀ v ∈ l, v < base) (hbu : ∀ v ∈ s.problem.model.u, v < base)
    (hxc : xc < base) (hb₂ : base + s.problem.model.u.length * degree ≤ base₂)
    (i : Nat) (hi : i < s.problem.model.u.length) :
    base + i ∈ s'.problem.model.uPar ∧ (∀ l ∈ s''.problem.model.allSym, base + i ∉ l) ∧
    ∀ e ∈ s.problem.gIneq, s.problem.model.u[i] ∈ e.syms →
      ∃ e'' ∈ s''.problem.gIneq, base + i ∈ e''.syms := by
  obtain ⟨o₁, h₁, rfl⟩ := prepare_first hc hr
  obtain ⟨-, hx, -, -, -, -, -, -, -, -, hu', -, -⟩ := C41_added xc fresh s.problem o₁ h₁
  obtain ⟨x, x0, ode, hm⟩ := createCostState_model h₁
  have hg : o₁.gIneq = s.problem.gIneq := by
    obtain ⟨o₂, h₂, rfl⟩ := Ocp.createCostState_ok_iff.mp h₁
    obtain ⟨-, lo, hi, m', hh, -, -, -, -, -, h₆, -, rfl⟩ := Ocp.includeState_ok_iff.mp h₂
    rfl
  have hxx : x = s.problem.model.x ++ [xc] := by rw [← hx, hm]
  unfold solvePreparation at hr'
  rw [if_neg (by simp [hp])] at hr'
  simp only [prepareAndMark, Py.bind_eq, Py.bind_eq_ok, Py.modify_ok] at hr'
  obtain ⟨⟨⟩, s₁, h₂, -, rfl⟩ := hr'
  rw [prepare_again (by rfl) h₂]
  have hid : i < s.problem.model.u.length * degree :=
    Nat.lt_of_lt_of_le hi (Nat.le_mul_of_pos_right _ hd)
  refine ⟨?_, ?_, ?_⟩
  · simp only [approximated, hu']
    exact List.mem_map.mpr ⟨i, List.mem_range.mpr hid, rfl⟩
  · simp only [approximated, SysModel.allSym, hm, List.mem_cons, List.not_mem_nil, or_false,
      forall_eq_or_imp, forall_eq]
    simp only [SysModel.allSym, List.mem_cons, List.not_mem_nil, or_false, forall_eq_or_imp,
      forall_eq] at hb
    obtain ⟨ht, hx', hy, hpp, hth, -⟩ := hb
    have hbig : ∀ l : List Sym, (∀ v ∈ l, v < base) → base + i ∉ l := fun l hl h =>
      absurd (hl _ h) (Nat.not_lt.mpr (Nat.le_add_right base i))
    refine ⟨fun h => ?_, hbig _ ?_, hbig _ hy, hbig _ hpp, hbig _ hth, ?_⟩
    · exact absurd (h ▸ ht) (Nat.not_lt.mpr (Nat.le_add_right base i))
    · intro v hv
      rw [hxx] at hv
      rcases List.mem_append.mp hv with hv | hv
      · exact hx' v hv
      · rw [List.mem_singleton.mp hv]; exact hxc
    · intro h
      obtain ⟨k, -, hk⟩ := List.mem_map.mp h
      have hk : base₂ + k = base + i := hk
      have : base + i < base₂ := Nat.lt_of_lt_of_le (Nat.add_lt_add_left hid base) hb₂
      rw [← hk] at this
      exact absurd this (Nat.not_lt.mpr (Nat.le_add_right base₂ k))
  · intro e he hei
    simp only [approximated, hg, List.map_map]
    refine ⟨_, List.mem_map.mpr ⟨e, he, rfl⟩, ?_⟩
    have htau' : o₁.model.tau ∉ o₁.model.u := by rw [hu', createCostState_tau h₁]; exact htau
    simp only [Function.comp]
    rw [subst_again roots degree base _ _ _ hn htau' (by rw [hu']; exact hbu)]
    rw [Expr.subst, Expr.mem_syms_mapSyms]
    refine ⟨_, hei, ?_⟩
    have hl : s.problem.model.u.length = (polynomials roots o₁.model.tau base o₁.model.u.length
      degree).length := by rw [polynomials_length, hu']
    rw [hu', Expr.replacementOf_get _ _ hu i hi (by rw [polynomials_length]; exact hi)]
    have := point_mem_syms roots o₁.model.tau base s.problem.model.u.length degree i 0 hi hn hd
    simpa [point] using this

/-- C130 fails for the indirect method: a second preparation never succeeds. -/
theorem C130_indirect_fails (B B' : Backend) (c p c' p' : Bool) (base xc fresh base' xc' fresh' : Sym)
    (o o' o'' : Ocp) (hr : Indirect.prepare B c p base xc fresh o = (.ok (), o')) :
    Indirect.prepare B' c' p' base' xc' fresh' o' ≠ (.ok (), o'') := by
  intro hr'
  obtain ⟨hu, hpar, -, hne⟩ := indirect_prepare_controls hr
  obtain ⟨-, -, hnot, -⟩ := indirect_prepare_controls hr'
  obtain ⟨v, hv⟩ := List.exists_mem_of_ne_nil _ hne
  exact hnot v (hu ▸ hv) (hpar v hv)

/-! ## C131 -/

/-- C131, what happens: a second direct method adds the running cost once more. -/
theorem C131_twice (roots roots₂ : List Rat) (degree degree₂ : Nat)
    (xc fresh base xc₂ fresh₂ base₂ : Sym) (o : Ocp) (s₁ s₂ : Method)
    (hr₁ : prepare roots degree xc fresh base { problem := o } = (.ok (), s₁))
    (hr₂ : prepare roots₂ degree₂ xc₂ fresh₂ base₂ { problem := s₁.problem } = (.ok (), s₂))
    (hl : o.x0.length = o.model.x0.length) (hu : o.model.u.Nodup)
    (hx : ∀ v ∈ o.model.x ++ [xc, xc₂], v ∉ o.model.u)
    (hx0 : ∀ v ∈ o.model.x0 ++ [fresh, fresh₂], v ∉ o.model.u)
    (ops : Expr.Ops ℝ) (X X' X'' : ℝ → Sym → ℝ) (t0 tf : ℝ)
    (hX : OcpTrajectory ops s₂.problem X t0 tf)
    (hX' : ∀ t, MovedTo ops o.model.u
      (polynomials roots₂ o.model.tau base₂ o.model.u.length degree₂) (X t) (X' t))
    (hX'' : ∀ t, MovedTo ops o.model.u
      (polynomials roots o.model.tau base o.model.u.length degree) (X' t) (X'' t))
    (hint : IntervalIntegrable (fun t => o.L.eval ops (X'' t)) volume t0 tf) :
    s₂.problem.V.eval ops (X tf) =
      o.V.eval ops (X'' tf) + 2 * ∫ t in t0..tf, o.L.eval ops (X'' t) := by
  obtain ⟨o₁, h₁, e₁⟩ := prepare_first rfl hr₁
  obtain ⟨-, hxx, -, -, h0, hxx0, -, -, -, -, hu', hL, -⟩ := C41_added xc fresh o o₁ h₁
  have hu₁ : s₁.problem.model.u = o.model.u := by rw [e₁]; exact hu'
  have ht₁ : s₁.problem.model.tau = o.model.tau := by
    rw [e₁]
    show o₁.model.tau = _
    exact createCostState_tau h₁
  have hl₁ : s₁.problem.x0.length = s₁.problem.model.x0.length := by
    rw [e₁]
    show o₁.x0.length = o₁.model.x0.length
    rw [h0, hxx0, List.length_append, List.length_append, hl]
    rfl
  have hx₁ : ∀ v ∈ s₁.problem.model.x ++ [xc₂], v ∉ s₁.problem.model.u := by
    rw [hu₁, e₁]
    show ∀ v ∈ o₁.model.x ++ [xc₂], _
    rw [hxx]
    simpa using hx
  have hx0₁ : ∀ v ∈ s₁.problem.model.x0 ++ [fresh₂], v ∉ s₁.problem.model.u := by
    rw [hu₁, e₁]
    show ∀ v ∈ o₁.model.x0 ++ [fresh₂], _
    rw [hxx0]
    simpa using hx0
  have hLe : ∀ t, s₁.problem.L.eval ops (X' t) = o.L.eval ops (X'' t) := by
    intro t
    rw [e₁]
    show (o₁.L.subst o₁.model.u (polynomials roots o₁.model.tau base o₁.model.u.length
      degree)).eval ops (X' t) = _
    rw [hL, hu', createCostState_tau h₁]
    exact eval_approximated ops roots degree base _ _ hu _ _ (hX'' t) _
  obtain ⟨o₂, h₂, e₂⟩ := prepare_first rfl hr₂
  have hT : OcpTrajectory ops s₁.problem X' t0 tf := by
    obtain ⟨-, hx₂, -, -, -, hx0₂, -, -, -, -, hu₂, -, -⟩ := C41_added xc₂ fresh₂ _ o₂ h₂
    have hA : OcpTrajectory ops { o₂ with V := .add o₂.V (.sym xc₂) } X' t0 tf := by
      refine trajectory_approximated ops roots₂ degree₂ base₂ _ X X' t0 tf ?_ ?_ ?_ (by
        rw [e₂] at hX; exact hX) ?_
      · show o₂.model.u.Nodup
        rw [hu₂, hu₁]; exact hu
      · show ∀ v ∈ o₂.model.x, v ∉ o₂.model.u
        rw [hx₂, hu₂]; exact hx₁
      · show ∀ v ∈ o₂.model.x0, v ∉ o₂.model.u
        rw [hx0₂, hu₂]; exact hx0₁
      · intro t
        show MovedTo ops o₂.model.u (polynomials roots₂ o₂.model.tau base₂ o₂.model.u.length
          degree₂) (X t) (X' t)
        rw [hu₂, createCostState_tau h₂, hu₁, ht₁]
        exact hX' t
    exact trajectory_costState ops xc₂ fresh₂ _ o₂ { o₂ with V := .add o₂.V (.sym xc₂) } h₂ hl₁ rfl
      rfl rfl X' t0 tf hA
  have r₁ := (C86_objective roots degree xc fresh base _ s₁ rfl hr₁ hl hu (hx xc (by simp))
    (hx0 fresh (by simp)) ops X' X'' t0 tf hT hX'' hint).2
  have r₂ := (C86_objective roots₂ degree₂ xc₂ fresh₂ base₂ _ s₂ rfl hr₂ hl₁ (by
    show s₁.problem.model.u.Nodup
    rw [hu₁]; exact hu) (hx₁ xc₂ (by simp)) (hx0₁ fresh₂ (by simp)) ops X X' t0 tf hX (by
    show ∀ t, MovedTo ops s₁.problem.model.u (polynomials roots₂ s₁.problem.model.tau base₂
      s₁.problem.model.u.length degree₂) (X t) (X' t)
    rw [hu₁, ht₁]; exact hX') (by
    show IntervalIntegrable (fun t => s₁.problem.L.eval ops (X' t)) volume t0 tf
    simpa only [hLe] using hint)).2
  have r₂ : s₂.problem.V.eval ops (X tf) = s₁.problem.V.eval ops (X' tf) +
      ∫ t in t0..tf, s₁.problem.L.eval ops (X' t) := r₂
  simp only [hLe] at r₂
  rw [r₂, r₁]
  ring

/-- C131, the part that holds: a problem without running cost can be given to several methods. -/
theorem C131_partial (roots roots₂ : List Rat) (degree degree₂ : Nat)
    (xc fresh base xc₂ fresh₂ base₂ : Sym) (o : Ocp) (s₁ s₂ : Method)
    (hr₁ : prepare roots degree xc fresh base { problem := o } = (.ok (), s₁))
    (hr₂ : prepare roots₂ degree₂ xc₂ fresh₂ base₂ { problem := s₁.problem } = (.ok (), s₂))
    (hl : o.x0.length = o.model.x0.length) (hu : o.model.u.Nodup)
    (hx : ∀ v ∈ o.model.x ++ [xc, xc₂], v ∉ o.model.u)
    (hx0 : ∀ v ∈ o.model.x0 ++ [fresh, fresh₂], v ∉ o.model.u)
    (ops : Expr.Ops ℝ) (X X' X'' : ℝ → Sym → ℝ) (t0 tf : ℝ)
    (hX : OcpTrajectory ops s₂.problem X t0 tf)
    (hX' : ∀ t, MovedTo ops o.model.u
      (polynomials roots₂ o.model.tau base₂ o.model.u.length degree₂) (X t) (X' t))
    (hX'' : ∀ t, MovedTo ops o.model.u
      (polynomials roots o.model.tau base o.model.u.length degree) (X' t) (X'' t))
    (hL : ∀ t, o.L.eval ops (X'' t) = 0) :
    s₂.problem.V.eval ops (X tf) =
      o.V.eval ops (X'' tf) + ∫ t in t0..tf, o.L.eval ops (X'' t) := by
  have := C131_twice roots roots₂ degree degree₂ xc fresh base xc₂ fresh₂ base₂ o s₁ s₂ hr₁ hr₂ hl hu
    hx hx0 ops X X' X'' t0 tf hX hX' hX'' (by simp [hL])
  rw [this]
  simp [hL]

/-- A problem with one state that stands still, one control and running cost one. -/
def restingProblem : Ocp :=
  { Ocp.new { SysModel.new 0 1 with
      x := [2]
      x0 := [3]
      ode := [(2, some (.const 0))]
      u := [4]
      uExpr := [.sym 4]
      uPar := [4] } (some [0]) 0 1 with
    L := .const 1
    gIneq := [.sym 4]
    timeGIneq := ["default"]
    hInitial := [.sub (.sym 3) (.sym 2)] }

/-- C131 fails: a direct method on a problem that another direct method has prepared minimises more
than the problem's cost. (`X` gives the control the value of its parameter, which is zero.) -/
theorem C131_fails (ops : Expr.Ops ℝ) : ∃ (o : Ocp) (s₁ s₂ : Method) (X : ℝ → Sym → ℝ),
    prepare [1] 1 5 6 10 { problem := o } = (.ok (), s₁) ∧
    prepare [1] 1 7 8 20 { problem := s₁.problem } = (.ok (), s₂) ∧
    OcpTrajectory ops s₂.problem X 0 1 ∧
    (∀ t, MovedTo ops o.model.u (polynomials [1] o.model.tau 20 1 1) (X t) (X t)) ∧
    (∀ t, MovedTo ops o.model.u (polynomials [1] o.model.tau 10 1 1) (X t) (X t)) ∧
    s₂.problem.V.eval ops (X 1) ≠ o.V.eval ops (X 1) + ∫ t in (0 : ℝ)..1, o.L.eval ops (X t) := by
  have hr₁ : (prepare [1] 1 5 6 10 { problem := restingProblem }).1 = .ok () := by decide +kernel
  have hr₂ : (prepare [1] 1 7 8 20 { problem :=
    (prepare [1] 1 5 6 10 { problem := restingProblem }).2.problem }).1 = .ok () := by decide +kernel
  let X : ℝ → Sym → ℝ := fun t v => if v = 5 ∨ v = 7 then t else 0
  refine ⟨restingProblem, (prepare [1] 1 5 6 10 { problem := restingProblem }).2,
    (prepare [1] 1 7 8 20 { problem :=
      (prepare [1] 1 5 6 10 { problem := restingProblem }).2.problem }).2, X,
    Prod.ext hr₁ rfl, Prod.ext hr₂ rfl, ?_, ?_, ?_, ?_⟩
  · refine ⟨?_, ?_, ?_⟩
    · intro t ht s hs e he
      have hs' : s ∈ [2, 5, 7] := hs
      simp only [List.mem_cons, List.not_mem_nil, or_false] at hs'
      rcases hs' with rfl | rfl | rfl
      · have : e = .const 0 := by
          rw [show Dict.get? _ (2 : Sym) = some (some (.const 0)) from rfl] at he
          cases he; rfl
        subst this
        simpa [X, Expr.eval] using hasDerivAt_const t (0 : ℝ)
      · have : e = .const 1 := by
          rw [show Dict.get? _ (5 : Sym) = some (some (.const 1)) from rfl] at he
          cases he; rfl
        subst this
        simpa [X, Expr.eval] using hasDerivAt_id' t
      · have : e = .const 1 := by
          rw [show Dict.get? _ (7 : Sym) = some (some (.const 1)) from rfl] at he
          cases he; rfl
        subst this
        simpa [X, Expr.eval] using hasDerivAt_id' t
    · intro e he
      have he' : e ∈ [Expr.sub (.sym 3) (.sym 2), .sub (.sym 6) (.sym 5), .sub (.sym 8) (.sym 7)] :=
        he
      simp only [List.mem_cons, List.not_mem_nil, or_false] at he'
      rcases he' with rfl | rfl | rfl <;> simp [X, Expr.eval]
    · intro p hp
      have hp' : p ∈ [((3 : Sym), (0 : Rat)), (6, 0), (8, 0)] := hp
      simp only [List.mem_cons, List.not_mem_nil, or_false] at hp'
      rcases hp' with rfl | rfl | rfl <;> simp [X]
  · intro t
    refine ⟨?_, fun _ _ => rfl⟩
    intro i h₁ h₂
    have h₁' : i < 1 := h₁
    obtain rfl : i = 0 := by omega
    rfl
  · intro t
    refine ⟨?_, fun _ _ => rfl⟩
    intro i h₁ h₂
    have h₁' : i < 1 := h₁
    obtain rfl : i = 0 := by omega
    rfl
  · have hV : (prepare [1] 1 7 8 20 { problem :=
      (prepare [1] 1 5 6 10 { problem := restingProblem }).2.problem }).2.problem.V =
      .add (.add (.const 0) (.sym 5)) (.sym 7) := rfl
    rw [hV]
    have hL : restingProblem.L = .const 1 := rfl
    have hV' : restingProblem.V = .const 0 := rfl
    rw [hL, hV']
    simp [X, Expr.eval]

/-! ## C132 -/

/-- C132 fails: the user's parameters are no decision variables of the prepared problem, although its
constraints depend on them. -/
theorem C132_fails (roots : List Rat) (degree : Nat) (xc fresh base : Sym) (s s' : Method)
    (hc : s.hasCostState = false) (hr : prepare roots degree xc fresh base s = (.ok (), s'))
    (K : Sym) (hK : K < base) (hKu : K ∉ s.problem.model.u) (hKt : K ≠ s.problem.model.t)
    (hKv : K ∉ s.problem.model.x ++ [xc] ++ s.problem.model.y ++ s.problem.model.p ++
      s.problem.model.theta) :
    (∀ l ∈ s'.problem.model.allSym, K ∉ l) ∧
    ∀ e ∈ s.problem.gIneq, K ∈ e.syms → ∃ e' ∈ s'.problem.gIneq, K ∈ e'.syms := by
  obtain ⟨o₁, h₁, rfl⟩ := prepare_first hc hr
  obtain ⟨-, hx, -, -, -, -, -, -, -, -, hu', -, -⟩ := C41_added xc fresh s.problem o₁ h₁
  obtain ⟨x, x0, ode, hm⟩ := createCostState_model h₁
  have hg : o₁.gIneq = s.problem.gIneq := by
    obtain ⟨o₂, h₂, rfl⟩ := Ocp.createCostState_ok_iff.mp h₁
    obtain ⟨-, lo, hi, m', hh, -, -, -, -, -, h₆, -, rfl⟩ := Ocp.includeState_ok_iff.mp h₂
    rfl
  have hxx : x = s.problem.model.x ++ [xc] := by rw [← hx, hm]
  simp only [List.mem_append, not_or] at hKv
  obtain ⟨⟨⟨hKx, hKy⟩, hKp⟩, hKth⟩ := hKv
  constructor
  · simp only [approximated, SysModel.allSym, hm, List.mem_cons, List.not_mem_nil, or_false,
      forall_eq_or_imp, forall_eq]
    refine ⟨hKt, ?_, hKy, hKp, hKth, fun h => ?_⟩
    · rw [hxx, List.mem_append, not_or]; exact hKx
    · obtain ⟨k, -, hk⟩ := List.mem_map.mp h
      rw [← hk] at hK
      exact absurd hK (Nat.not_lt.mpr (Nat.le_add_right base k))
  · intro e he hKe
    simp only [approximated, hg]
    refine ⟨_, List.mem_map.mpr ⟨e, he, rfl⟩, ?_⟩
    rw [Expr.subst, Expr.mem_syms_mapSyms, hu']
    exact ⟨K, hKe, by rw [Expr.replacementOf_not_mem _ _ K hKu]; simp [Expr.syms]⟩

/-- C132, the part that holds: when the expressions of a problem contain, besides the model's other
variables, only controls, those of the prepared problem contain only its decision variables and the
pseudo time. -/
theorem C132_partial (roots : List Rat) (degree : Nat) (xc fresh base : Sym) (s s' : Method)
    (hc : s.hasCostState = false) (hr : prepare roots degree xc fresh base s = (.ok (), s'))
    (hn : degree ≠ 1 → roots.length = degree)
    (hs : ∀ e ∈ expressions s.problem, ∀ v ∈ e.syms, v ∈ s.problem.model.t :: (s.problem.model.x ++
      s.problem.model.y ++ s.problem.model.p ++ s.problem.model.theta ++ s.problem.model.u)) :
    ∀ e ∈ expressions s'.problem, ∀ v ∈ e.syms,
      v = s.problem.model.tau ∨ ∃ l ∈ s'.problem.model.allSym, v ∈ l := by
  obtain ⟨o₁, h₁, rfl⟩ := prepare_first hc hr
  obtain ⟨-, hx, hxc, hne, -, -, -, -, -, -, hu', hL, hV⟩ := C41_added xc fresh s.problem o₁ h₁
  obtain ⟨x, x0, ode, hm⟩ := createCostState_model h₁
  have hxx : x = s.problem.model.x ++ [xc] := by rw [← hx, hm]
  have hrest : o₁.gIneq = s.problem.gIneq ∧ o₁.gEq = s.problem.gEq ∧
      o₁.hFinal = s.problem.hFinal := by
    obtain ⟨o₂, h₂, rfl⟩ := Ocp.createCostState_ok_iff.mp h₁
    obtain ⟨-, lo, hi, m', hh, -, -, -, -, -, h₆, -, rfl⟩ := Ocp.includeState_ok_iff.mp h₂
    exact ⟨rfl, rfl, rfl⟩
  obtain ⟨hg₁, hg₂, hf⟩ := hrest
  have hode := createCostState_ode h₁
  have hu'' : o₁.model.alg = s.problem.model.alg := by rw [hm]
  intro e he v hv
  obtain ⟨e₀, he₀, rfl⟩ := expressions_approximated roots degree base _ e he
  rcases Expr.mem_syms_subst _ _ (by rw [polynomials_length]) e₀ v hv with ⟨h, hvu⟩ | ⟨r, hr, h⟩
  · right
    have hv₀ : v = xc ∨ ∃ e ∈ expressions s.problem, v ∈ e.syms := by
      simp only [expressions, List.mem_append, List.mem_cons, List.not_mem_nil, or_false, hode, hf,
        hg₁, hg₂, hu'', hL, List.filterMap_append, List.filterMap_cons, List.filterMap_nil] at he₀
      rcases he₀ with (((((rfl | rfl) | h') | h') | h') | h') | h' | rfl
      · exact .inr ⟨s.problem.L, by simp [expressions], h⟩
      · rw [hV] at h
        rcases List.mem_append.mp h with h | h
        · exact .inr ⟨_, by simp [expressions], h⟩
        · exact .inl (List.mem_singleton.mp h)
      · exact .inr ⟨_, by simp [expressions, h'], h⟩
      · exact .inr ⟨_, by simp [expressions, h'], h⟩
      · exact .inr ⟨_, by simp [expressions, h'], h⟩
      · exact .inr ⟨_, by simp [expressions, h'], h⟩
      · exact .inr ⟨e₀, by simp only [expressions, List.mem_append]; exact .inr h', h⟩
      · exact .inr ⟨_, by simp [expressions], h⟩
    simp only [approximated, SysModel.allSym, hm, hxx, List.mem_cons, List.not_mem_nil, or_false,
      exists_eq_or_imp, exists_eq_left]
    rcases hv₀ with rfl | ⟨e', he', hve⟩
    · simp
    · have := hs e' he' v hve
      have hvu' : v ∉ s.problem.model.u := by
        rw [← hu']; exact hvu
      simp only [List.mem_cons, List.mem_append] at this
      rcases this with h | (((h | h) | h) | h) | h
      · exact .inl h
      · simp [h]
      · simp [h]
      · simp [h]
      · simp [h]
      · exact absurd h hvu'
  · rcases syms_polynomials roots _ base _ degree hn r hr v h with rfl | h
    · left
      show o₁.model.tau = _
      exact createCostState_tau h₁
    · right
      exact ⟨_, by simp only [approximated, SysModel.allSym]; simp, h⟩

/-- The hypotheses of the theorems on direct methods are met: a problem with one state, one control
and one constraint, for the methods of degree one and two. -/
example :
    let s : Method := { problem := restingProblem }
    let s₁ := (prepare [1] 1 5 6 10 s).2
    let s₂ := (prepare [1 / 3, 1] 2 5 6 10 s).2
    (prepare [1] 1 5 6 10 s).1 = .ok () ∧ (prepare [1 / 3, 1] 2 5 6 10 s).1 = .ok () ∧
    (solvePreparation [1] 1 7 8 20 s₁).1 = .ok () ∧
    (solvePreparation [1] 1 5 6 10 s).1 = .ok () ∧
    s₁.problem.model.x = [2, 5] ∧ s₁.problem.model.uPar = [10] ∧ s₂.problem.model.uPar = [10, 11] ∧
    s₁.problem.gIneq = [.sym 10] ∧
    (solvePreparation [1] 1 7 8 20 s₁).2.problem.model.uPar = [20] ∧
    (solvePreparation [1] 1 7 8 20 s₁).2.problem.gIneq = [.sym 10] ∧
    s.problem.model.u.Nodup ∧ s.problem.x0.length = s.problem.model.x0.length ∧
    s.problem.model.tau ∉ s.problem.model.u ∧
    (∀ l ∈ s.problem.model.allSym, ∀ v ∈ l, v < 10) ∧
    (∀ e ∈ expressions s.problem, ∀ v ∈ e.syms, v ∈ s.problem.model.t :: (s.problem.model.x ++
      s.problem.model.y ++ s.problem.model.p ++ s.problem.model.theta ++ s.problem.model.u)) := by
  decide +kernel

/-- The hypotheses of `C130_partial` are met by a problem without controls, those of `C132_fails` by
one whose control was replaced by `k x`. -/
example :
    let s : Method := { problem := { restingProblem with
      model := { restingProblem.model with
        u := []
        uPar := []
        uExpr := [] }
      uMin := []
      uMax := []
      duMin := []
      duMax := []
      uGuess := none
      gIneq := [] } }
    let s₁ := (prepare [1] 1 5 6 10 s).2
    let r := { restingProblem with gIneq := [.sub (.sym 4) (.const 1)] }.parametrizeControl [4]
      [.mul (.sym 9) (.sym 2)] (some [9])
    let q : Method := { problem := r.2 }
    (prepare [1] 1 5 6 10 s).1 = .ok () ∧ (solvePreparation [1] 1 7 8 20 s₁).1 = .ok () ∧
    s.problem.model.u = [] ∧ r.1 = .ok () ∧ q.problem.model.uPar = [9] ∧
    (prepare [1] 1 5 6 10 q).1 = .ok () ∧ (prepare [1] 1 5 6 10 q).2.problem.model.uPar = [10] ∧
    ((prepare [1] 1 5 6 10 q).2.problem.gIneq.map Expr.syms) = [[9, 2]] := by
  decide +kernel

/-- The hypotheses of `C130_indirect_fails` are met: `x' = u`, running cost `u²`. -/
example :
    let o : Ocp := { Ocp.new { SysModel.new 0 1 with
        x := [2]
        x0 := [3]
        ode := [(2, some (.sym 4))]
        u := [4]
        uExpr := [.sym 4]
        uPar := [4] } (some [0]) 0 1 with
      L := .mul (.sym 4) (.sym 4)
      uMin := [⊥]
      uMax := [⊤]
      xMin := [⊥]
      xMax := [⊤]
      hInitial := [.sub (.sym 3) (.sym 2)] }
    let B : Backend := ⟨plainTable,
      fun _ => [[.const (1 / 2)]], fun _ => false⟩
    (Indirect.prepare B false false 10 20 21 o).1 = .ok () := by
  decide +kernel

end Verif
