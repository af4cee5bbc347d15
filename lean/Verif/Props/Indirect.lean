import Verif.Lemmas.Indirect
/-!
# C85, C128, C129: clipping, adjoint equations, and the bounds of the user's problem
-/
namespace Verif
open Spec Indirect

section Clip

set_option linter.unusedSectionVars false

variable {K : Type u} [Field K] [LinearOrder K] [IsStrictOrderedRing K]

/-- C85. With consistent bounds the control law lies within them, whatever the unconstrained value
is. -/
theorem C85_within (ops : Expr.Ops K) (hops : MinMax ops opFmin opFmax) (ρ : Sym → K) (lo hi : XRat)
    (hc : ∃ w : K, Within lo hi w) (e : Expr) : Within lo hi ((clip lo hi e).eval ops ρ) := by
  obtain ⟨hmin, hmax⟩ := hops
  obtain ⟨w, hlo, hhi, h₁, h₂⟩ := hc
  rcases XRat.cases lo with rfl | rfl | ⟨q, rfl⟩ <;> rcases XRat.cases hi with rfl | rfl | ⟨r, rfl⟩
  all_goals (simp [Within, clip, clipLow, clipHigh, Expr.eval, hmin, hmax] at *)
  exact_mod_cast h₁.trans h₂

/-- C85. A value within the bounds is not changed. -/
theorem C85_inside (ops : Expr.Ops K) (hops : MinMax ops opFmin opFmax) (ρ : Sym → K) (lo hi : XRat)
    (e : Expr) (h : Within lo hi (e.eval ops ρ)) :
    (clip lo hi e).eval ops ρ = e.eval ops ρ := by
  obtain ⟨hmin, hmax⟩ := hops
  obtain ⟨hlo, hhi, h₁, h₂⟩ := h
  rcases XRat.cases lo with rfl | rfl | ⟨q, rfl⟩ <;> rcases XRat.cases hi with rfl | rfl | ⟨r, rfl⟩
  all_goals simp_all [clip, clipLow, clipHigh, Expr.eval]

/-- C85. The control law is the admissible value nearest to the unconstrained one. -/
theorem C85_nearest (ops : Expr.Ops K) (hops : MinMax ops opFmin opFmax) (ρ : Sym → K)
    (lo hi : XRat) (e : Expr) (w : K) (hw : Within lo hi w) :
    |(clip lo hi e).eval ops ρ - e.eval ops ρ| ≤ |w - e.eval ops ρ| := by
  obtain ⟨hmin, hmax⟩ := hops
  obtain ⟨hlo, hhi, h₁, h₂⟩ := hw
  rcases XRat.cases lo with rfl | rfl | ⟨q, rfl⟩ <;> rcases XRat.cases hi with rfl | rfl | ⟨r, rfl⟩
  all_goals (simp [clip, clipLow, clipHigh, Expr.eval, hmin, hmax] at *)
  all_goals generalize e.eval ops ρ = v
  all_goals have ha := le_abs_self (w - v)
  all_goals have hb := neg_abs_le (w - v)
  all_goals have hp := abs_nonneg (w - v)
  · rcases le_total v r with h | h <;> simp only [min_eq_left, min_eq_right, h, sub_self, abs_zero]
    · exact hp
    · rw [abs_le]; constructor <;> linarith
  · rcases le_total v q with h | h <;> simp only [max_eq_left, max_eq_right, h, sub_self, abs_zero]
    · rw [abs_le]; constructor <;> linarith
    · exact hp
  · rcases le_total v q with h | h <;> simp only [max_eq_left, max_eq_right, h]
    · rw [min_eq_left (h₁.trans h₂), abs_le]; constructor <;> linarith
    · rcases le_total v r with h' | h' <;>
        simp only [min_eq_left, min_eq_right, h', sub_self, abs_zero]
      · exact hp
      · rw [abs_le]; constructor <;> linarith

/-- C85. Clipping twice is clipping once, for any bounds. -/
theorem C85_idempotent (ops : Expr.Ops K) (hops : MinMax ops opFmin opFmax) (ρ : Sym → K)
    (lo hi : XRat) (e : Expr) :
    (clip lo hi (clip lo hi e)).eval ops ρ = (clip lo hi e).eval ops ρ := by
  obtain ⟨hmin, hmax⟩ := hops
  rcases XRat.cases lo with rfl | rfl | ⟨q, rfl⟩ <;> rcases XRat.cases hi with rfl | rfl | ⟨r, rfl⟩
  all_goals (simp [clip, clipLow, clipHigh, Expr.eval, hmin, hmax] at *)
  generalize e.eval ops ρ = v
  rcases le_total (q : K) r with h | h
  · have h₁ : (q : K) ≤ min (max v q) r := le_min (le_max_right _ _) h
    rw [max_eq_left h₁, min_eq_left (min_le_right _ _)]
  · rw [min_eq_right (h.trans (le_max_right v (q : K))), max_eq_right h, min_eq_right h]

/-- C85. With crossed bounds the upper bound wins. -/
theorem C85_crossed (ops : Expr.Ops K) (hops : MinMax ops opFmin opFmax) (ρ : Sym → K)
    (lo hi : Rat) (h : hi < lo) (e : Expr) :
    (clip (XRat.fin lo) (XRat.fin hi) e).eval ops ρ = (hi : K) := by
  obtain ⟨hmin, hmax⟩ := hops
  have hq : (hi : K) ≤ lo := by exact_mod_cast h.le
  simp [clip, clipLow, clipHigh, Expr.eval, hmin, hmax, hq]


theorem clipAll_get (los his : List XRat) (es : List Expr) (i : Nat) (lo hi : XRat) (e : Expr)
    (hlo : los[i]? = some lo) (hhi : his[i]? = some hi) (he : es[i]? = some e) :
    (clipAll los his es)[i]? = some (clip lo hi e) := by
  induction es generalizing los his i with
  | nil => simp at he
  | cons a es ih =>
    cases los with
    | nil => simp at hlo
    | cons l los =>
      cases his with
      | nil => simp at hhi
      | cons h his =>
        cases i with
        | zero => simp_all [clipAll]
        | succ i => simpa [clipAll] using ih los his i (by simpa using hlo) (by simpa using hhi)
                      (by simpa using he)

/-- C85. The law of control `i` is the unconstrained optimum, minus row `i` of the inverse Hessian
times the gradient at zero control, clipped to the bounds of control `i`: it lies within them, and
is the unconstrained optimum itself when that does. -/
theorem C85_law (B : Backend) (H : Expr) (o : Ocp) (us : List Expr)
    (hr : calculateOptimalControl B H o = .ok us) (i : Nat) (row : List Expr) (lo hi : XRat)
    (hrow : (B.inv (Expr.hessian B.table o.model.u H))[i]? = some row)
    (hlo : o.uMin[i]? = some lo) (hhi : o.uMax[i]? = some hi)
    (ops : Expr.Ops K) (hops : MinMax ops opFmin opFmax) (ρ ρ₀ : Sym → K) (hn : o.model.u.Nodup)
    (h₀ : (∀ s ∈ o.model.u, ρ₀ s = 0) ∧ ∀ s, s ∉ o.model.u → ρ₀ s = ρ s) :
    let v : K := -(List.zipWith (fun a s => a.eval ops ρ *
      (Expr.diff B.table s H).eval ops ρ₀) row o.model.u).sum
    ∃ e : Expr, us[i]? = some e ∧
      ((∃ w : K, Within lo hi w) → Within lo hi (e.eval ops ρ)) ∧
      (Within lo hi v → e.eval ops ρ = v) ∧
      ∀ w : K, Within lo hi w → |e.eval ops ρ - v| ≤ |w - v| := by
  intro v
  unfold calculateOptimalControl at hr
  split at hr
  · cases hr
  split at hr
  · cases hr
  cases hr
  let e₀ : Expr := .neg (Expr.dot row ((Expr.gradient B.table o.model.u H).map
    (Expr.subst o.model.u (o.model.u.map fun _ => .const 0))))
  have he₀ : (unconstrained B H o.model.u)[i]? = some e₀ := by
    simp only [unconstrained, List.getElem?_map, hrow, Option.map_some, e₀]
  have hv : e₀.eval ops ρ = v := by
    have hs : ∀ e : Expr, (e.subst o.model.u (o.model.u.map fun _ => .const 0)).eval ops ρ =
        e.eval ops ρ₀ := fun e => Expr.eval_subst ops ρ ρ₀ _ _ hn (by simp)
      (fun j h₁ h₂ => by simp [h₀.1 _ (List.getElem_mem h₁), Expr.eval]) h₀.2 e
    simp only [e₀, v, Expr.eval, Expr.eval_dot, Expr.gradient, List.map_map, List.zipWith_map_right,
      Function.comp_def, hs]
  refine ⟨_, clipAll_get _ _ _ i lo hi e₀ hlo hhi he₀, fun hc => C85_within ops hops ρ lo hi hc e₀,
    fun hw => ?_, fun w hw => ?_⟩
  · rw [C85_inside ops hops ρ lo hi e₀ (hv ▸ hw), hv]
  · rw [← hv]; exact C85_nearest ops hops ρ lo hi e₀ w hw

/-- C85. A Hamiltonian whose Hessian in the controls is recognised as zero is rejected. -/
theorem C85_rejects (B : Backend) (H : Expr) (o : Ocp)
    (h : B.isZero (Expr.hessian B.table o.model.u H) = true) :
    calculateOptimalControl B H o = .error .exception := by
  simp [calculateOptimalControl, h]

end Clip

/-- A table for expressions without named operators. -/
def plainTable : Expr.DiffTable := ⟨fun _ _ => .const 0, fun _ _ _ => .const 0, fun _ _ _ => .const 0⟩

/-- Minimum and maximum as `fmin` and `fmax`. -/
def minMaxOps (K : Type u) [LinearOrder K] : Expr.Ops K :=
  ⟨fun _ a => a, fun o a b => if o = opFmin then min a b else max a b⟩

theorem minMaxOps_ok (K : Type u) [LinearOrder K] : MinMax (minMaxOps K) opFmin opFmax :=
  ⟨fun _ _ => by simp [minMaxOps, opFmin], fun _ _ => by simp [minMaxOps, opFmin, opFmax]⟩

/-- The hypotheses of C85 are met: `H = u² - 6 u` with the control in `[0, 2]`; the law is two, its
unconstrained value three. -/
example :
    let o : Ocp := { Ocp.new { SysModel.new 0 1 with u := [2] } (some []) 0 1 with
      uMin := [XRat.fin 0]
      uMax := [XRat.fin 2] }
    let H : Expr := .sub (.mul (.sym 2) (.sym 2)) (.mul (.const 6) (.sym 2))
    let B : Backend := ⟨plainTable, fun _ => [[.const (1 / 2)]], fun _ => false⟩
    ((calculateOptimalControl B H o).toOption.map fun us =>
      us.map (Expr.eval (minMaxOps Rat) fun _ => 0)) = some [2] ∧
    (∃ w : Rat, Within (XRat.fin 0) (XRat.fin 2) w) := by
  refine ⟨by decide +kernel, 1, by simp [Within]⟩

/-! ## C128 -/

/-- C128. The equation of the adjoint of state `i` is minus the derivative of the Hamiltonian with
respect to state `i`. -/
theorem C128_costate (D : Expr.DiffTable) (base : Sym) (o o' : Ocp) (H : Expr)
    (hr : o.createAdjointStates D base = (.ok H, o')) (ops : Expr.Ops ℝ) (ρ : Sym → ℝ)
    (hL : o.L.SmoothAt ops D ρ) (ho : ∀ e ∈ o.model.odeVec, e.SmoothAt ops D ρ)
    (ha : ∀ e ∈ o.model.alg, e.SmoothAt ops D ρ) (i : Nat) (x l : Sym)
    (hx : o.model.x[i]? = some x) (hl : (o'.model.x.drop o.model.x.length)[i]? = some l) :
    ∃ e, o'.model.ode.get? l = some (some e) ∧
      HasDerivAt (fun v => hamiltonianAt ops o (o'.model.x.drop o.model.x.length)
        (o'.model.y.drop o.model.y.length) (Function.update ρ x v)) (-e.eval ops ρ) (ρ x) := by
  have ht := adjoint_table hr
  obtain ⟨hH, hk, -, rfl⟩ := createAdjointStates_ok hr
  simp only [List.drop_left] at hl ⊢
  obtain ⟨hi, rfl⟩ := List.getElem?_eq_some_iff.mp hx
  obtain ⟨hi', rfl⟩ := List.getElem?_eq_some_iff.mp hl
  refine ⟨.neg (Expr.diff D o.model.x[i] H), ?_, ?_⟩
  · simp only at ht ⊢
    rw [ht, get?_append_zip _ _ _ (newSyms_nodup _ _) hk i hi' (by simpa [Expr.gradient] using hi)]
    simp [Expr.gradient]
  · have := Expr.hasDerivAt_diff ops D ρ o.model.x[i] H
      (smoothAt_hamiltonian ops D ρ o _ _ H hH hL ho ha)
    simpa only [Expr.eval, neg_neg, eval_hamiltonian ops _ o _ _ H hH] using this

/-- C128. The new algebraic equation `k` is the derivative of the Hamiltonian with respect to
algebraic variable `k`. -/
theorem C128_stationary (D : Expr.DiffTable) (base : Sym) (o o' : Ocp) (H : Expr)
    (hr : o.createAdjointStates D base = (.ok H, o')) (ops : Expr.Ops ℝ) (ρ : Sym → ℝ)
    (hL : o.L.SmoothAt ops D ρ) (ho : ∀ e ∈ o.model.odeVec, e.SmoothAt ops D ρ)
    (ha : ∀ e ∈ o.model.alg, e.SmoothAt ops D ρ) (k : Nat) (y : Sym)
    (hy : o.model.y[k]? = some y) :
    ∃ e, o'.model.alg[o.model.alg.length + k]? = some e ∧
      HasDerivAt (fun v => hamiltonianAt ops o (o'.model.x.drop o.model.x.length)
        (o'.model.y.drop o.model.y.length) (Function.update ρ y v)) (e.eval ops ρ) (ρ y) := by
  obtain ⟨hH, hk, -, rfl⟩ := createAdjointStates_ok hr
  simp only [List.drop_left]
  obtain ⟨hi, rfl⟩ := List.getElem?_eq_some_iff.mp hy
  refine ⟨Expr.diff D o.model.y[k] H, ?_, ?_⟩
  · simp [Expr.gradient, hi]
  · have := Expr.hasDerivAt_diff ops D ρ o.model.y[k] H
      (smoothAt_hamiltonian ops D ρ o _ _ H hH hL ho ha)
    simpa only [eval_hamiltonian ops _ o _ _ H hH] using this

/-- C128. The new final condition `i` says that the adjoint of state `i` is the derivative, with
respect to state `i`, of the final cost plus the weighted final constraints. -/
theorem C128_transversality (D : Expr.DiffTable) (base : Sym) (o o' : Ocp) (H : Expr)
    (hr : o.createAdjointStates D base = (.ok H, o')) (ops : Expr.Ops ℝ) (ρ : Sym → ℝ)
    (hV : o.V.SmoothAt ops D ρ) (hh : ∀ e ∈ o.hFinal, e.SmoothAt ops D ρ) (i : Nat) (x l : Sym)
    (hx : o.model.x[i]? = some x) (hl : (o'.model.x.drop o.model.x.length)[i]? = some l) :
    ∃ e d, o'.hFinal[o.hFinal.length + i]? = some e ∧
      HasDerivAt (fun v => finalAt ops o o'.eta ρ (Function.update ρ x v)) d (ρ x) ∧
      e.eval ops ρ = ρ l - d := by
  obtain ⟨hH, hk, -, rfl⟩ := createAdjointStates_ok hr
  simp only [List.drop_left] at hl ⊢
  obtain ⟨hi, rfl⟩ := List.getElem?_eq_some_iff.mp hx
  obtain ⟨hi', rfl⟩ := List.getElem?_eq_some_iff.mp hl
  let eta := newSyms (base + o.model.x.length + o.model.y.length) o.hFinal.length
  refine ⟨Ocp.transversality D o.V o.hFinal eta (newSyms base o.model.x.length)[i] o.model.x[i],
    (Expr.diff D o.model.x[i] o.V).eval ops ρ + (List.zipWith (fun h n =>
      (Expr.diff D o.model.x[i] h).eval ops ρ * ρ n) o.hFinal eta).sum, ?_, ?_, ?_⟩
  · simp only [List.getElem?_append_right (Nat.le_add_right ..), Nat.add_sub_cancel_left]
    exact List.getElem?_eq_some_iff.mpr ⟨by simp [newSyms_length, hi], List.getElem_zipWith ..⟩
  · unfold finalAt
    refine (Expr.hasDerivAt_diff ops D ρ _ _ hV).fun_add ?_
    exact hasDerivAt_weighted ops D ρ _ _ eta hh
  · simp [Ocp.transversality, Expr.eval, Expr.eval_dot, sub_sub, eta, List.zipWith_map_left,
      List.zipWith_map_right]

/-- C128. The user's equations, constraints and bounds stay in front, one adjoint per state, one
multiplier per algebraic variable and per final constraint are added without bounds, and a problem
with as many equations as variables stays one. -/
theorem C128_square (D : Expr.DiffTable) (base : Sym) (o o' : Ocp) (H : Expr)
    (hr : o.createAdjointStates D base = (.ok H, o')) :
    (∃ lamb nu, o'.model.x = o.model.x ++ lamb ∧ lamb.length = o.model.x.length ∧
      o'.model.y = o.model.y ++ nu ∧ nu.length = o.model.y.length ∧ lamb.Nodup ∧ nu.Nodup) ∧
    o'.eta.length = o.hFinal.length ∧ o'.model.u = o.model.u ∧
    (∀ s ∈ o.model.ode.keys, o'.model.ode.get? s = o.model.ode.get? s) ∧
    o.model.alg <+: o'.model.alg ∧ o.hFinal <+: o'.hFinal ∧ o'.hInitial = o.hInitial ∧
    o'.L = o.L ∧ o'.V = o.V ∧
    o'.xMin = o.xMin ++ List.replicate o.model.x.length ⊥ ∧
    o'.xMax = o.xMax ++ List.replicate o.model.x.length ⊤ ∧
    o'.model.odeVec.length = o'.model.x.length ∧ o'.model.alg.length = o'.model.y.length ∧
    o'.hFinal.length = o.hFinal.length + o.model.x.length := by
  have ht := adjoint_table hr
  obtain ⟨hH, hk, -, rfl⟩ := createAdjointStates_ok hr
  obtain ⟨h₁, h₂, -⟩ := Ocp.hamiltonian_ok_iff.mp hH
  rw [newSyms_length] at h₁ h₂
  refine ⟨⟨_, _, rfl, newSyms_length _ _, rfl, newSyms_length _ _, newSyms_nodup _ _,
    newSyms_nodup _ _⟩, newSyms_length _ _, rfl, ?_, ⟨_, rfl⟩, ⟨_, rfl⟩, rfl, rfl, rfl, rfl, rfl,
    ?_, ?_, ?_⟩
  · intro s hs
    simp only at ht ⊢
    rw [ht, Dict.get?_append]
    cases h : o.model.ode.get? s with
    | none => exact absurd hs ((Dict.get?_eq_none_iff ..).mp h)
    | some v => rfl
  · simp only [SysModel.odeVec] at ht h₁ ⊢
    rw [ht]
    simp only [Dict.values, List.map_append, List.filterMap_append, List.length_append, newSyms_length]
    rw [List.map_snd_zip (by simp [newSyms_length, Expr.gradient])]
    have : ((o.model.ode.map Prod.snd).filterMap id).length = o.model.x.length := h₁.symm
    simp only [this]
    simp [Expr.gradient]
  · simp [newSyms_length, Expr.gradient, h₂]
  · simp [newSyms_length]

/-- C128. On a problem with states, one equation per state and one algebraic equation per algebraic
variable, adding the adjoints succeeds. -/
theorem C128_succeeds (D : Expr.DiffTable) (base : Sym) (o : Ocp) (hx : o.model.x ≠ [])
    (ho : o.model.odeVec.length = o.model.x.length) (ha : o.model.alg.length = o.model.y.length)
    (hf : ∀ s ∈ o.model.ode.keys, s < base) :
    ∃ H o', o.createAdjointStates D base = (.ok H, o') := by
  obtain ⟨H, hH⟩ : ∃ H, o.hamiltonian (newSyms base o.model.x.length)
      (newSyms (base + o.model.x.length) o.model.y.length) = .ok H :=
    ⟨_, Ocp.hamiltonian_ok_iff.mpr ⟨by rw [newSyms_length, ho], by rw [newSyms_length, ha], rfl⟩⟩
  obtain ⟨m', hm⟩ : ∃ m', SysModel.includeState (newSyms base o.model.x.length)
      (some ((Expr.gradient D o.model.x H).map .neg)) none
      (base + o.model.x.length + o.model.y.length + o.hFinal.length) o.model = (.ok (), m') := by
    refine ⟨_, (SysModel.includeState_ok_iff ..).mpr
      ⟨fun _ h => hx ?_, newSyms_nodup _ _, ?_, ?_, rfl⟩⟩
    · simpa [newSyms] using h
    · exact fun v hv hk => absurd (hf v hk) (Nat.not_lt.mpr (newSyms_mem hv).1)
    · intro e he
      cases he
      simp [newSyms_length, Expr.gradient]
  obtain ⟨o₁, h₁⟩ : ∃ o₁, Ocp.includeState (newSyms base o.model.x.length)
      (some ((Expr.gradient D o.model.x H).map .neg)) none none none none none true
      (base + o.model.x.length + o.model.y.length + o.hFinal.length) { o with
        eta := newSyms (base + o.model.x.length + o.model.y.length) o.hFinal.length } =
      (.ok (), o₁) :=
    ⟨_, Ocp.includeState_ok_iff.mpr
      ⟨rfl, _, _, m', none, rfl, rfl, by simp, by simp, rfl, hm, rfl, rfl⟩⟩
  obtain ⟨o₂, h₂⟩ : ∃ o₂, Ocp.includeAlgebraic (newSyms (base + o.model.x.length) o.model.y.length)
      (some (Expr.gradient D o.model.y H)) none none none
      { o₁ with model := { o₁.model with hasAdjoint := true } } = (.ok (), o₂) :=
    ⟨_, Ocp.includeAlgebraic_ok_iff.mpr ⟨by simp, by simp, rfl⟩⟩
  refine ⟨H, { o₂ with
    hFinal := o₂.hFinal ++
      List.zipWith (Ocp.transversality D o₂.V o₂.hFinal o₂.eta) o₂.model.lamb o₂.model.xSys }, ?_⟩
  unfold Ocp.createAdjointStates
  simp only [Py.bind_eq, Py.get_bind, Py.modify_bind]
  exact Py.lift_bind_ok.mpr ⟨_, hH, Py.bind_eq_ok.mpr ⟨(), _, h₁,
    Py.bind_eq_ok.mpr ⟨(), _, rfl, Py.bind_eq_ok.mpr ⟨(), _, h₂, rfl⟩⟩⟩⟩

/-- C128. A problem with a state without equation is rejected. -/
theorem C128_rejects (D : Expr.DiffTable) (base : Sym) (o : Ocp)
    (ho : o.model.odeVec.length ≠ o.model.x.length) :
    (o.createAdjointStates D base).1 = .error .runtimeError := by
  have hH : o.hamiltonian (newSyms base o.model.x.length)
      (newSyms (base + o.model.x.length) o.model.y.length) = .error .runtimeError := by
    rw [Ocp.hamiltonian, if_pos (.inl (by rw [newSyms_length]; exact fun h => ho h.symm))]
  simp [Ocp.createAdjointStates, Py.bind_eq, hH]

/-- The hypotheses of C128 are met: `x' = -x u`, running cost `x²`, final constraint `x - 1`; the
costate equation at `x = 2`, `λ = 3`, `u = 5` is `-(2·2 - 3·5)`. -/
example :
    let o : Ocp := { Ocp.new { SysModel.new 0 1 with
        x := [2]
        x0 := [3]
        ode := [(2, some (.neg (.mul (.sym 2) (.sym 4))))]
        u := [4]
        uExpr := [.sym 4]
        uPar := [4] } (some [1]) 0 1 with
      L := .mul (.sym 2) (.sym 2)
      hFinal := [.sub (.sym 2) (.const 1)] }
    (o.createAdjointStates plainTable 10).1.toOption.isSome = true ∧
    (o.createAdjointStates plainTable 10).2.model.x = [2, 10] ∧
    (((o.createAdjointStates plainTable 10).2.model.ode.get? 10).bind id).map
      (Expr.eval (minMaxOps Rat) fun s => if s = 2 then 2 else if s = 10 then 3 else 5) =
        some 11 := by decide +kernel

/-! ## C129 -/

theorem checkBounds_run (o : Ocp) (hs : Sized o) : checkBounds o = (.ok (), { o with
    xMin := List.replicate o.model.x.length ⊥
    xMax := List.replicate o.model.x.length ⊤
    yMin := List.replicate o.model.y.length ⊥
    yMax := List.replicate o.model.y.length ⊤ }) := by
  have hr : ∀ (n : Nat) (b : XRat) (l : List XRat), l.length = n →
      release n b l = .ok (List.replicate n b) := by
    intro n b l h
    simp [release, h, List.drop_eq_nil_of_le]
  simp [checkBounds, Py.bind_eq, hr _ _ _ hs.xMin, hr _ _ _ hs.xMax, hr _ _ _ hs.yMin,
    hr _ _ _ hs.yMax, Py.modify]

/-- C129. Only the bounds of states and algebraic variables can change; a problem without such
bounds is left as it is. -/
theorem C129_partial (o : Ocp) (hs : Sized o) (hx : ∀ b ∈ o.xMin, b = ⊥) (hx' : ∀ b ∈ o.xMax, b = ⊤)
    (hy : ∀ b ∈ o.yMin, b = ⊥) (hy' : ∀ b ∈ o.yMax, b = ⊤) : checkBounds o = (.ok (), o) := by
  rw [checkBounds_run o hs, ← List.eq_replicate_iff.mpr ⟨hs.xMin, hx⟩,
    ← List.eq_replicate_iff.mpr ⟨hs.xMax, hx'⟩, ← List.eq_replicate_iff.mpr ⟨hs.yMin, hy⟩,
    ← List.eq_replicate_iff.mpr ⟨hs.yMax, hy'⟩]

/-- C129 is false: after an indirect method was created for a problem of the right sizes, no state
and no algebraic variable of the user's problem is bounded, whatever the bounds were; so the problem
has changed whenever there was a finite one. -/
theorem C129_fails (o : Ocp) (hs : Sized o) :
    (checkBounds o).1 = .ok () ∧
    (∀ b ∈ (checkBounds o).2.xMin, b = ⊥) ∧ (∀ b ∈ (checkBounds o).2.xMax, b = ⊤) ∧
    (∀ b ∈ (checkBounds o).2.yMin, b = ⊥) ∧ (∀ b ∈ (checkBounds o).2.yMax, b = ⊤) ∧
    ((∃ q, XRat.fin q ∈ o.xMin ++ o.xMax ++ o.yMin ++ o.yMax) → (checkBounds o).2 ≠ o) := by
  rw [checkBounds_run o hs]
  have hm : ∀ (n : Nat) (b c : XRat), c ∈ List.replicate n b → c = b :=
    fun n b c h => List.eq_of_mem_replicate h
  refine ⟨rfl, fun b => hm _ _ b, fun b => hm _ _ b, fun b => hm _ _ b, fun b => hm _ _ b, ?_⟩
  rintro ⟨q, hq⟩ he
  have hb : XRat.fin q ≠ ⊥ := WithBot.coe_ne_bot
  have ht : XRat.fin q ≠ ⊤ := fun h => WithTop.coe_ne_top (WithBot.coe_injective h)
  rw [← he] at hq
  simp only [List.mem_append] at hq
  rcases hq with ((h | h) | h) | h
  · exact hb (hm _ _ _ h)
  · exact ht (hm _ _ _ h)
  · exact hb (hm _ _ _ h)
  · exact ht (hm _ _ _ h)

/-- The hypotheses are met: one state between zero and one. -/
example :
    let o : Ocp := { Ocp.new { SysModel.new 0 1 with
        x := [2]
        x0 := [3]
        ode := [(2, none)] } (some [1]) 0 1 with
      xMin := [XRat.fin 0]
      xMax := [XRat.fin 1] }
    o.preSolveCheck = .ok () ∧ (checkBounds o).2.xMin = [⊥] ∧ (checkBounds o).2.xMax = [⊤] := by
  decide +kernel

end Verif
