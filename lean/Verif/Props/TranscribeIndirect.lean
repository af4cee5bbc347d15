import Verif.Lemmas.TranscribeIndirect
/-!
# C183: the nonlinear program of an indirect method is the collocated system of Pontryagin
-/
namespace Verif
open Spec Indirect Matrix

/-- C183. A problem whose Hamiltonian is a strictly convex quadratic function of the controls whose
Hessian does not couple a control that has a bound with another one is prepared by an indirect method
and discretised. For the decision vector `b` let
`ρ el tau` be the values of the symbols, with the controls that minimise the Hamiltonian within their
bounds. Then the program has the objective zero, and its constraints hold at `b` exactly when the
states, the adjoints, the algebraic variables and the multipliers satisfy the conditions of optimality
of the problem of the user. Missing for the full property: Hessians that couple controls with
bounds (C127),
stage costs and limits on the changes of the controls. -/
theorem C183_partial (B : Backend) (ops : Expr.Ops ℝ) (hops : MinMax ops opFmin opFmax)
    (prepared : Bool) (base xc fresh : Sym) (o q : Ocp)
    (h : prepare B false prepared base xc fresh o = (.ok (), q)) (ho : IndirectProblem o) (M : Mesh)
    (hM : GoodMesh M) (m : Transcription ℝ)
    (hm : q.indirectTranscription ops M.roots M.elements = .ok m) (b : Blocks ℝ)
    (hb : CollocationData (indirectDims o M) b) (x0 p : List ℝ) (theta : List (List ℝ))
    (hd : IndirectData o M x0 p theta) (lastU : Option (List ℝ)) (H : Expr)
    (hH : o.hamiltonian (addedTo o q).lamb (addedTo o q).nu = .ok H) (ρ : Nat → ℝ → Sym → ℝ)
    (hr : ∀ el < M.elements, ∀ tau, ReadsIndirect o (addedTo o q) M b x0 p theta el tau (ρ el tau))
    (hs : ∀ el < M.elements, ∀ tau, SolvableControls ops B o H (ρ el tau))
    (hc : ∀ el < M.elements, ∀ tau, MinimisesHamiltonian ops o (addedTo o q) (ρ el tau))
    (hk : DerivativesKnown ops B.table o M ρ) :
    ∃ cons, m.discretize b x0 p theta lastU = .ok (cons, 0) ∧
      ((∀ c ∈ cons, c.Holds) ↔ IndirectSolution ops o (addedTo o q) M b ρ) := by
  obtain ⟨H', us, hp⟩ := prepared_of h
  obtain rfl : H' = H := by
    have := hp.hamiltonian
    simp only [addedTo, hp.x, hp.y, List.drop_left] at hH
    exact Except.ok.inj (this.symm.trans hH)
  obtain ⟨hf, rfl⟩ := transcribed hM ops hm
  obtain ⟨cons, h₁, h₂⟩ := (setting hp ho hM hb hd hr hf).program ops lastU
  exact ⟨cons, h₁, h₂.trans (solution_iff hp ho hM ops hops hs hc hk)⟩

/-- C183. The controls the prepared problem reports are those that minimise the Hamiltonian. -/
theorem C183_law_partial (B : Backend) (ops : Expr.Ops ℝ) (hops : MinMax ops opFmin opFmax)
    (prepared : Bool) (base xc fresh : Sym) (o q : Ocp)
    (h : prepare B false prepared base xc fresh o = (.ok (), q)) (ho : IndirectProblem o) (H : Expr)
    (hH : o.hamiltonian (addedTo o q).lamb (addedTo o q).nu = .ok H) (ρ : Sym → ℝ)
    (hs : SolvableControls ops B o H ρ) (hc : MinimisesHamiltonian ops o (addedTo o q) ρ) :
    q.model.uExpr.map (Expr.eval ops ρ) = o.model.u.map ρ := by
  obtain ⟨H', us, hp⟩ := prepared_of h
  obtain rfl : H' = H := by
    have := hp.hamiltonian
    simp only [addedTo, hp.x, hp.y, List.drop_left] at hH
    exact Except.ok.inj (this.symm.trans hH)
  rw [hp.controls, ho.free.2, List.map_map, List.map_map, List.map_map]
  refine List.map_congr_left fun s _ => ?_
  simp only [Function.comp]
  rw [subst_value hp ho ops hops ρ hs hc, subst_value hp ho ops hops ρ hs hc]
  rfl

/-- C183. With different symbols and bounds that leave some controls, there are such values of the
symbols for every decision vector: the theorem above is about every decision vector. -/
theorem C183_values_partial (B : Backend) (ops : Expr.Ops ℝ) (hops : MinMax ops opFmin opFmax)
    (prepared : Bool) (base xc fresh : Sym) (o q : Ocp)
    (h : prepare B false prepared base xc fresh o = (.ok (), q)) (ho : IndirectProblem o) (H : Expr)
    (hH : o.hamiltonian (addedTo o q).lamb (addedTo o q).nu = .ok H)
    (hs : ∀ σ, SolvableControls ops B o H σ) (hb : ∃ w, InBounds o w)
    (hn : (indirectSymbols o (addedTo o q)).Nodup) (M : Mesh) (b : Blocks ℝ) (x0 p : List ℝ)
    (theta : List (List ℝ)) (el : Nat) (tau : ℝ) :
    ∃ ρ, ReadsIndirect o (addedTo o q) M b x0 p theta el tau ρ ∧
      MinimisesHamiltonian ops o (addedTo o q) ρ := by
  obtain ⟨H', us, hp⟩ := prepared_of h
  obtain rfl : H' = H := by
    have := hp.hamiltonian
    simp only [addedTo, hp.x, hp.y, List.drop_left] at hH
    exact Except.ok.inj (this.symm.trans hH)
  have idx : ∀ (l : List Sym) (i : Nat) (s : Sym), l.Nodup → l[i]? = some s → l.idxOf s = i := by
    intro l i s hl hs
    obtain ⟨hi, rfl⟩ := List.getElem?_eq_some_iff.mp hs
    exact hl.idxOf_getElem i hi
  obtain ⟨-, hpn, hpm⟩ := ho.parameters
  obtain ⟨-, htn, htm⟩ := ho.thetas
  obtain ⟨hn', -, hdis⟩ := List.nodup_append.mp hn
  have hout : ∀ s, s ∈ o.model.u → s ∉ [o.model.t, o.model.tau] ++ (o.model.x ++ (addedTo o q).lamb) ++
      (o.model.y ++ (addedTo o q).nu) ++ o.model.p ++ o.model.theta ++
      (o.model.x0 ++ (addedTo o q).starts) ++ (addedTo o q).eta :=
    fun s hs hs' => hdis s hs' s hs rfl
  obtain ⟨σ, hσ⟩ := exists_assignment (K := ℝ)
    [([o.model.t], fun _ => stepLength o M * ((el : ℝ) + tau)),
    ([o.model.tau], fun _ => tau), (o.model.x ++ (addedTo o q).lamb, fun i => (statePoly M b el i).eval tau),
    (o.model.y ++ (addedTo o q).nu, fun i => (algebraicPoly M b el i).eval tau),
    (o.model.p, fun i => if o.model.p.getD i 0 ∈ o.pOpt
      then b.pOpt.getD (o.pOpt.idxOf (o.model.p.getD i 0)) 0 else p.getD i 0),
    (o.model.theta, fun i => if o.model.theta.getD i 0 ∈ o.thetaOpt
      then (b.thetaOpt.getD el []).getD (o.thetaOpt.idxOf (o.model.theta.getD i 0)) 0
      else (theta.getD el []).getD i 0),
    (o.model.x0 ++ (addedTo o q).starts, fun i => x0.getD i 0),
    ((addedTo o q).eta, fun i => b.eta.getD i 0)]
    (by simpa using hn')
  simp only [List.forall_mem_cons, List.not_mem_nil, false_implies, implies_true, and_true] at hσ
  obtain ⟨h₁, h₂, h₃, h₄, h₆, h₇, h₈, h₉⟩ := hσ
  obtain ⟨c, g, A, hq, hA, hdiag⟩ := (hs σ).quadratic
  obtain ⟨w, -, hw, hmin⟩ := C127_partial B H' o us hp.law ho.sized ho.controls ops hops σ c g A hq hA
    hdiag (hs σ).size (hs σ).inverse hb
  have keep : ∀ s, s ∉ o.model.u → assign o.model.u w σ s = σ s := assign_not_mem _ _ _
  have out : ∀ (l : List Sym) (i : Nat) (s : Sym), (∀ s ∈ l, s ∉ o.model.u) → l[i]? = some s →
      assign o.model.u w σ s = σ s := fun l i s hl hs => keep s (hl s (List.mem_of_getElem? hs))
  have hsub : ∀ s ∈ [o.model.t, o.model.tau] ++ (o.model.x ++ (addedTo o q).lamb) ++
      (o.model.y ++ (addedTo o q).nu) ++ o.model.p ++ o.model.theta ++
      (o.model.x0 ++ (addedTo o q).starts) ++ (addedTo o q).eta, s ∉ o.model.u :=
    fun s hs hu => hout s hu hs
  refine ⟨assign o.model.u w σ, ⟨?_, ?_, ?_, ?_, ?_, ?_, ?_, ?_, ?_, ?_⟩, ?_, ?_⟩
  · rw [keep _ (hsub _ (by simp))]; exact h₁ 0 _ rfl
  · rw [keep _ (hsub _ (by simp))]; exact h₂ 0 _ rfl
  · intro i s hi
    have := List.mem_of_getElem? hi
    rw [keep _ (hsub _ (by simp at this; simp [this]; tauto)), h₃ i s hi]
  · intro i s hi
    have := List.mem_of_getElem? hi
    rw [keep _ (hsub _ (by simp at this; simp [this]; tauto)), h₄ i s hi]
  · intro i s hi hno
    have := List.mem_of_getElem? hi
    rw [keep _ (hsub _ (by simp [this])), h₆ i s hi, List.getD_eq_getElem?_getD (l := o.model.p), hi,
      Option.getD_some, if_neg hno]
  · intro i s hi
    obtain ⟨j, hj⟩ := List.getElem?_of_mem (hpm s (List.mem_of_getElem? hi))
    have := List.mem_of_getElem? hj
    rw [keep _ (hsub _ (by simp [this])), h₆ j s hj, List.getD_eq_getElem?_getD (l := o.model.p), hj,
      Option.getD_some, if_pos (List.mem_of_getElem? hi), idx _ i s hpn hi]
  · intro i s hi hno
    have := List.mem_of_getElem? hi
    rw [keep _ (hsub _ (by simp [this])), h₇ i s hi, List.getD_eq_getElem?_getD (l := o.model.theta), hi,
      Option.getD_some, if_neg hno]
  · intro i s hi
    obtain ⟨j, hj⟩ := List.getElem?_of_mem (htm s (List.mem_of_getElem? hi))
    have := List.mem_of_getElem? hj
    rw [keep _ (hsub _ (by simp [this])), h₇ j s hj, List.getD_eq_getElem?_getD (l := o.model.theta), hj,
      Option.getD_some, if_pos (List.mem_of_getElem? hi), idx _ i s htn hi]
  · intro i s hi
    have := List.mem_of_getElem? hi
    rw [keep _ (hsub _ (by simp at this; simp [this]; tauto)), h₈ i s hi]
  · intro i s hi
    have := List.mem_of_getElem? hi
    rw [keep _ (hsub _ (by simp [this])), h₉ i s hi]
  · have : (fun i : Fin o.model.u.length => assign o.model.u w σ o.model.u[i]) = w :=
      funext fun i => assign_get o.model.u ho.controls w σ i
    rw [this]
    exact hw
  · intro w' hw'
    have hH : ∀ τ, hamiltonianAt ops o (addedTo o q).lamb (addedTo o q).nu τ = H'.eval ops τ := by
      intro τ
      rw [eval_hamiltonian ops τ o _ _ H' hp.hamiltonian]
      simp [addedTo, hp.x, hp.y]
    have ha : assign o.model.u w' (assign o.model.u w σ) = assign o.model.u w' σ := by
      funext s
      by_cases hsu : s ∈ o.model.u
      · obtain ⟨i, hi, rfl⟩ := List.getElem_of_mem hsu
        exact (assign_get o.model.u ho.controls w' _ ⟨i, hi⟩).trans
          (assign_get o.model.u ho.controls w' σ ⟨i, hi⟩).symm
      · rw [assign_not_mem _ _ _ _ hsu, assign_not_mem _ _ _ _ hsu, assign_not_mem _ _ _ _ hsu]
    rw [hH, hH, ha]
    exact hmin w' hw'

/-- C183 fails for stage costs: two problems that differ in the stage cost alone have the same
program, for every decision vector. -/
theorem C183_stage_fails (B : Backend) (ops : Expr.Ops ℝ) (prepared : Bool) (base xc fresh : Sym)
    (o q q' : Ocp) (S : Expr) (h : prepare B false prepared base xc fresh o = (.ok (), q))
    (h' : prepare B false prepared base xc fresh { o with S := S } = (.ok (), q')) (M : Mesh)
    (hM : GoodMesh M) (m m' : Transcription ℝ)
    (hm : q.indirectTranscription ops M.roots M.elements = .ok m)
    (hm' : q'.indirectTranscription ops M.roots M.elements = .ok m') (b : Blocks ℝ) (x0 p : List ℝ)
    (theta : List (List ℝ)) (lastU : Option (List ℝ)) :
    m.discretize b x0 p theta lastU = m'.discretize b x0 p theta lastU := by
  obtain ⟨H, us, hp⟩ := prepared_of h
  obtain ⟨H', us', hp'⟩ := prepared_of h'
  obtain rfl : H = H' := Except.ok.inj (hp.hamiltonian.symm.trans hp'.hamiltonian)
  obtain rfl : us = us' := Except.ok.inj (hp.law.symm.trans hp'.law)
  obtain ⟨-, rfl⟩ := transcribed hM ops hm
  obtain ⟨-, rfl⟩ := transcribed hM ops hm'
  have e : ∀ {α : Type} {a b c : α}, a = c → b = c → a = b := fun h₁ h₂ => h₁.trans h₂.symm
  have ht := e hp.times.1 hp'.times.1
  have htf := e hp.times.2 hp'.times.2
  obtain ⟨k₁, k₂, k₃, k₄, k₅⟩ := hp.known
  obtain ⟨k₁', k₂', k₃', k₄', k₅'⟩ := hp'.known
  have : Own.Setting.built ops M { q with V := .const 0 } =
      Own.Setting.built ops M { q' with V := .const 0 } := by
    refine built_congr ops M _ _ ht htf (e k₁ k₁') (e k₂ k₂') (e k₃ k₃') (e k₄ k₄') (e k₅ k₅')
      (e hp.x hp'.x) (e hp.y hp'.y) (e hp.x0 hp'.x0) (e hp.eta hp'.eta) (e hp.points hp'.points)
      (e hp.others.1 hp'.others.1) (e hp.others.2 hp'.others.2) (e hp.limits.1 hp'.limits.1)
      (e hp.limits.2 hp'.limits.2) (e hp.tags.1 hp'.tags.1) (e hp.tags.2 hp'.tags.2)
      (e hp.ode hp'.ode) (e hp.alg hp'.alg) (e hp.path.1 hp'.path.1) (e hp.path.2 hp'.path.2)
      (e hp.initial hp'.initial) (e hp.final hp'.final) (e hp.timeless hp'.timeless) rfl
  rw [this]

/-- C183 fails for limits on the changes of the controls: an indirect method has no control variables
to compare, and the discretisation raises an exception. -/
theorem C183_limits_fails (B : Backend) (ops : Expr.Ops ℝ) (prepared : Bool) (base xc fresh : Sym)
    (o q : Ocp) (h : prepare B false prepared base xc fresh o = (.ok (), q))
    (_hfree : o.model.uPar = o.model.u) (M : Mesh) (hM : GoodMesh M) (m : Transcription ℝ)
    (hm : q.indirectTranscription ops M.roots M.elements = .ok m) (b : Blocks ℝ)
    (hb : CollocationData (indirectDims o M) b) (x0 p : List ℝ) (theta : List (List ℝ))
    (lastU : Option (List ℝ)) (i : Nat) (hi : i < o.model.u.length) (lo hi' : XRat)
    (hlo : o.duMin[i]? = some lo) (hhi : o.duMax[i]? = some hi') (hl : lo ≠ ⊥ ∨ hi' ≠ ⊤)
    (hel : 1 < M.elements ∨ lastU ≠ none) (cons : List (Con ℝ)) (v : ℝ) :
    m.discretize b x0 p theta lastU ≠ .ok (cons, v) := by
  obtain ⟨H, us, hp⟩ := prepared_of h
  obtain ⟨-, rfl⟩ := transcribed hM ops hm
  have hempty : ∀ el, b.u.getD el [] = [] := by
    intro el
    have hg := hb.u
    have hc : controlPoints (indirectDims o M) = 0 := by simp [controlPoints, indirectDims]
    rw [hc] at hg
    rw [List.getD_eq_getElem?_getD]
    cases h : b.u[el]? with
    | none => rfl
    | some l =>
      have := (hg.2 l (List.mem_of_getElem? h)).1
      simpa using this
  have hb₁ : ∀ a : XRat, (Ocp.boundValue a : WithBot (WithTop ℝ)) = ⊥ → a = ⊥ := by
    intro a ha
    match a, ha with
    | none, _ => rfl
    | some none, ha => exact absurd ha (by simp [Ocp.boundValue])
    | some (some q), ha => exact absurd ha (by simp [Ocp.boundValue])
  have hb₂ : ∀ a : XRat, (Ocp.boundValue a : WithBot (WithTop ℝ)) = ⊤ → a = ⊤ := by
    intro a ha
    match a, ha with
    | none, ha => exact absurd ha (by simp [Ocp.boundValue])
    | some none, _ => rfl
    | some (some q), ha => exact absurd (WithBot.coe_injective ha) WithTop.coe_ne_top
  have hlim : (Own.Setting.built ops M { q with V := .const 0 }).hasDeltaU = true := by
    unfold Transcription.hasDeltaU
    rw [List.any_eq_true]
    refine ⟨i, List.mem_range.mpr ?_, ?_⟩
    · show i < q.model.u.length
      rw [hp.known.2.2.2.2]
      exact hi
    · have e₁ : (Own.Setting.built ops M { q with V := .const 0 }).duMax[i]? =
          some (Ocp.boundValue hi') := by
        show (q.duMax.map Ocp.boundValue)[i]? = _
        rw [hp.limits.2, List.getElem?_map, hhi]; rfl
      have e₂ : (Own.Setting.built ops M { q with V := .const 0 }).duMin[i]? =
          some (Ocp.boundValue lo) := by
        show (q.duMin.map Ocp.boundValue)[i]? = _
        rw [hp.limits.1, List.getElem?_map, hlo]; rfl
      rw [e₁, e₂]
      simp only [ne_eq, Option.some.injEq, decide_not, Bool.or_eq_true, Bool.not_eq_true',
        decide_eq_false_iff_not]
      rcases hl with h₀ | h₀
      · exact .inr fun h => h₀ (hb₁ _ h)
      · exact .inl fun h => h₀ (hb₂ _ h)
  intro hd
  have hrates : ∀ el, (0 < el ∨ lastU ≠ none) →
      (Own.Setting.built ops M { q with V := .const 0 }).rates b lastU el = .error .indexError := by
    intro el hel
    unfold Transcription.rates
    rw [if_pos hlim]
    by_cases he : el > 0
    · simp [Transcription.previousControl, he, List.getD_eq_getElem?_getD ▸ hempty (el - 1), itemAt, bind, Except.bind]
    · obtain ⟨u, hu⟩ := Option.ne_none_iff_exists'.mp (hel.resolve_left he)
      simp [Transcription.previousControl, he, hu, List.getD_eq_getElem?_getD ▸ hempty el, itemAt, bind, Except.bind,
        pure, Except.pure]
  obtain ⟨el, hel', hel''⟩ : ∃ el < M.elements, 0 < el ∨ lastU ≠ none := by
    rcases hel with h | h
    · exact ⟨1, h, .inl Nat.one_pos⟩
    · exact ⟨0, hM.elements, .inr h⟩
  have inv : ∀ {α β : Type} {x : Except Err α} {f : α → Except Err β} {r : β},
      (x >>= f) = .ok r → ∃ a, x = .ok a ∧ f a = .ok r := fun h => Ocp.bind_ok_iff.mp h
  unfold Transcription.discretize at hd
  obtain ⟨_, -, hd⟩ := inv hd
  obtain ⟨_, -, hd⟩ := inv hd
  obtain ⟨results, -, hd⟩ := inv hd
  obtain ⟨_, hbody, -⟩ := inv hd
  have key : ∀ (l : List Nat) (f : Nat → Except Err (List (Con ℝ))) (r : List (List (Con ℝ))),
      l.mapM f = .ok r → ∀ a ∈ l, ∃ c, f a = .ok c := by
    intro l f
    induction l with
    | nil => intro _ _ a ha; simp at ha
    | cons c l ih =>
      intro r hr a ha
      rw [List.mapM_cons] at hr
      obtain ⟨x, hx, hr⟩ := inv hr
      obtain ⟨y, hy, -⟩ := inv hr
      rcases List.mem_cons.mp ha with rfl | ha
      · exact ⟨x, hx⟩
      · exact ih y hy a ha
  obtain ⟨c, hc⟩ := key _ _ _ hbody el (List.mem_range.mpr hel')
  unfold Transcription.consOf Transcription.elementCons at hc
  obtain ⟨_, -, hc⟩ := inv hc
  obtain ⟨_, -, hc⟩ := inv hc
  obtain ⟨_, -, hc⟩ := inv hc
  obtain ⟨_, hr, -⟩ := inv hc
  rw [hrates el hel''] at hr
  cases hr

/-! ## Example: `x' = u - p x`, the cost `u² + x²`, and `u ≥ -1` -/

namespace Example

/-- The problem. -/
def pontryaginProblem : Ocp :=
  { Ocp.new { SysModel.new 0 1 with
      x := [2]
      x0 := [3]
      ode := [(2, some (.sub (.sym 4) (.mul (.sym 5) (.sym 2))))]
      u := [4]
      uExpr := [.sym 4]
      uPar := [4]
      p := [5] } (some [1]) 0 2 with
    L := .add (.mul (.sym 4) (.sym 4)) (.mul (.sym 2) (.sym 2))
    V := .mul (.sym 2) (.sym 2)
    uMin := [XRat.fin (-1)] }

/-- Two elements with two collocation points. -/
def pontryaginMesh : Mesh := ⟨2, [1 / 2, 1], [1 / 2, 1]⟩

/-- A symbolic engine that inverts the Hessian `2`. -/
def pontryaginBackend : Backend := ⟨plainTable, fun _ => [[.const (1 / 2)]], fun _ => false⟩

/-- The prepared problem. -/
def pontryaginPrepared : Ocp := (prepare pontryaginBackend false false 10 20 21 pontryaginProblem).2

theorem pontryagin_prepared : prepare pontryaginBackend false false 10 20 21 pontryaginProblem =
    (.ok (), pontryaginPrepared) := by
  have : (prepare pontryaginBackend false false 10 20 21 pontryaginProblem).1 = .ok () := by
    decide +kernel
  exact Prod.ext this rfl

theorem pontryagin_added : addedTo pontryaginProblem pontryaginPrepared = ⟨[10], [], [], [11]⟩ := by
  have : (addedTo pontryaginProblem pontryaginPrepared).lamb = [10] ∧
      (addedTo pontryaginProblem pontryaginPrepared).nu = [] ∧
      (addedTo pontryaginProblem pontryaginPrepared).eta = [] ∧
      (addedTo pontryaginProblem pontryaginPrepared).starts = [11] := by decide +kernel
  obtain ⟨h₁, h₂, h₃, h₄⟩ := this
  cases h : addedTo pontryaginProblem pontryaginPrepared
  simp_all

theorem pontryaginMesh_good : GoodMesh pontryaginMesh where
  elements := by decide
  points := by decide
  increasing := by decide +kernel
  last := rfl
  controls := by decide

theorem pontryagin_problem : IndirectProblem pontryaginProblem where
  horizon := by decide +kernel
  complete := by unfold Complete; decide +kernel
  starts := rfl
  controls := by decide
  free := by decide
  parameters := by decide
  thetas := by decide
  tags := by decide
  tagged := by decide
  sized := by constructor <;> decide +kernel
  unlimited := by decide +kernel

/-- The Hamiltonian `u² + x² + λ (u - p x)`. -/
def pontryaginHamiltonian : Expr :=
  .add (.add (.add (.mul (.sym 4) (.sym 4)) (.mul (.sym 2) (.sym 2)))
    (Expr.dot [.sym 10] [.sub (.sym 4) (.mul (.sym 5) (.sym 2))])) (Expr.dot [] [])

theorem pontryagin_hamiltonian : pontryaginProblem.hamiltonian [10] [] = .ok pontryaginHamiltonian := rfl

theorem pontryagin_solvable (ρ : Sym → ℝ) :
    SolvableControls (minMaxOps ℝ) pontryaginBackend pontryaginProblem pontryaginHamiltonian ρ := by
  have hq : QuadraticInControls (minMaxOps ℝ) plainTable pontryaginHamiltonian [4] ρ
      (ρ 2 * ρ 2 - ρ 10 * (ρ 5 * ρ 2)) ![ρ 10] !![2] := by
    refine ⟨fun w => ?_, fun w => ?_, fun w s hs => ?_⟩
    · have h4 : assign [4] w ρ 4 = w 0 := assign_get [4] (by decide) w ρ 0
      have h2 : assign [4] w ρ 2 = ρ 2 := assign_not_mem _ _ _ _ (by decide)
      have h5 : assign [4] w ρ 5 = ρ 5 := assign_not_mem _ _ _ _ (by decide)
      have h10 : assign [4] w ρ 10 = ρ 10 := assign_not_mem _ _ _ _ (by decide)
      simp [pontryaginHamiltonian, Expr.dot, Expr.eval, h4, h2, h5, h10, quadratic, dotProduct, mulVec]
      ring
    · simp [pontryaginHamiltonian, Expr.dot, Expr.SmoothAt]
    · fin_cases hs <;> simp [pontryaginHamiltonian, Expr.dot, Expr.diff, Expr.SmoothAt]
  have hA : StrictlyConvex (!![(2 : ℝ)]) := by
    refine ⟨by ext i j; fin_cases i; fin_cases j; rfl, fun d hd => ?_⟩
    have h0 : d 0 ≠ 0 := fun h => hd (by ext i; fin_cases i; exact h)
    have := mul_self_pos.mpr h0
    simp [dotProduct, mulVec]
    linarith
  refine ⟨⟨rfl, by decide⟩, ?_, _, _, _, hq, hA, ?_⟩
  · have hM := hessian_matrix (u := [4]) (by decide) hA.1 hq
    refine Eq.trans ?_ (congrArg _ hM).symm
    symm
    apply inv_eq_left_inv
    ext i j
    fin_cases i
    fin_cases j
    show ∑ k : Fin 1, matrixAt (minMaxOps ℝ) ρ 1 [[.const (1 / 2)]] 0 k * (!![(2 : ℝ)]) k 0 = 1
    simp [matrixAt, Expr.eval]
  · intro i j hij
    exact absurd (Subsingleton.elim (α := Fin 1) i j) hij

theorem pontryagin_transcribed : ∃ m, pontryaginPrepared.indirectTranscription (minMaxOps ℝ)
    pontryaginMesh.roots pontryaginMesh.elements = .ok m := by
  have h₁ : FunctionScope { pontryaginPrepared with V := .const 0 } := by
    have h : ({ pontryaginPrepared with V := .const 0 }.functions 2).toOption.isSome = true := by
      decide +kernel
    cases h' : { pontryaginPrepared with V := .const 0 }.functions 2 with
    | error e => rw [h'] at h; simp [Except.toOption] at h
    | ok f => exact ((Ocp.functions_ok (by decide) f).mp h').1
  have h₂ : ((List.range 2).mapM (pontryaginPrepared.lawFunction 2)).toOption.isSome = true := by
    decide +kernel
  cases h₃ : (List.range 2).mapM (pontryaginPrepared.lawFunction 2) with
  | error e => rw [h₃] at h₂; simp [Except.toOption] at h₂
  | ok fs =>
    have h₄ := (Ocp.transcription_ok_iff (minMaxOps ℝ) _ pontryaginMesh.roots pontryaginMesh.elements
      pontryaginMesh.roots.length pontryaginMesh.roots.length (by decide) _).mpr ⟨h₁, rfl⟩
    unfold Ocp.indirectTranscription
    rw [h₄]
    simp only [bind, Except.bind]
    rw [show (List.range pontryaginMesh.elements).mapM
      (pontryaginPrepared.lawFunction pontryaginMesh.elements) = .ok fs from h₃]
    exact ⟨_, rfl⟩

end Example

open Example in
/-- The hypotheses of `C183_partial`, `C183_law_partial` and `C183_values_partial` are met for every
decision vector of the right size. -/
example (b : Blocks ℝ) (hb : CollocationData (indirectDims pontryaginProblem pontryaginMesh) b) :
    ∃ m ρ cons, (∀ el < 2, ∀ tau, ReadsIndirect pontryaginProblem ⟨[10], [], [], [11]⟩ pontryaginMesh b
        [1, 0] [3] [[], []] el tau (ρ el tau) ∧
        MinimisesHamiltonian (minMaxOps ℝ) pontryaginProblem ⟨[10], [], [], [11]⟩ (ρ el tau)) ∧
      pontryaginPrepared.indirectTranscription (minMaxOps ℝ) [1 / 2, 1] 2 = .ok m ∧
      m.discretize b [1, 0] [3] [[], []] none = .ok (cons, 0) ∧
      ((∀ c ∈ cons, c.Holds) ↔ IndirectSolution (minMaxOps ℝ) pontryaginProblem ⟨[10], [], [], [11]⟩
        pontryaginMesh b ρ) := by
  obtain ⟨m, hm⟩ := pontryagin_transcribed
  have hH : pontryaginProblem.hamiltonian (addedTo pontryaginProblem pontryaginPrepared).lamb
      (addedTo pontryaginProblem pontryaginPrepared).nu = .ok pontryaginHamiltonian := by
    rw [pontryagin_added]; exact pontryagin_hamiltonian
  have hin : ∃ w, InBounds pontryaginProblem w := by
    refine ⟨fun _ => 0, fun i lo hi h₁ h₂ => ?_⟩
    obtain ⟨i, hi'⟩ := i
    match i, hi', h₁, h₂ with
    | 0, _, h₁, h₂ =>
      simp only [pontryaginProblem, Ocp.new, List.getElem?_cons_zero, Option.some.injEq,
        List.length_singleton, List.replicate_one] at h₁ h₂
      subst h₁ h₂
      refine ⟨by simp, by simp, fun q hq => ?_, by simp⟩
      have : q = -1 := (WithTop.coe_injective (WithBot.coe_injective hq)).symm
      rw [this]
      norm_num
  have hv := fun el tau => C183_values_partial pontryaginBackend (minMaxOps ℝ) (minMaxOps_ok ℝ) false 10 20 21
    pontryaginProblem pontryaginPrepared pontryagin_prepared pontryagin_problem pontryaginHamiltonian hH
    pontryagin_solvable hin (by rw [pontryagin_added]; decide) pontryaginMesh b [1, 0] [3] [[], []] el tau
  have hk : DerivativesKnown (minMaxOps ℝ) pontryaginBackend.table pontryaginProblem pontryaginMesh
      (fun el tau => (hv el tau).choose) := by
    refine ⟨fun el _ tau _ e he => ?_, fun e he => ?_⟩
    · have : e = pontryaginProblem.L ∨ e = .sub (.sym 4) (.mul (.sym 5) (.sym 2)) := by
        simpa [SysModel.odeVec, pontryaginProblem, Ocp.new, SysModel.new, Dict.values] using he
      rcases this with rfl | rfl <;> simp [pontryaginProblem, Expr.SmoothAt]
    · have : e = pontryaginProblem.V := by
        simpa [pontryaginProblem, Ocp.new] using he
      subst this
      simp [pontryaginProblem, Expr.SmoothAt]
  obtain ⟨cons, h₁, h₂⟩ := C183_partial pontryaginBackend (minMaxOps ℝ) (minMaxOps_ok ℝ) false 10 20 21
    pontryaginProblem pontryaginPrepared pontryagin_prepared pontryagin_problem pontryaginMesh
    pontryaginMesh_good m hm b hb [1, 0] [3] [[], []] ⟨rfl, rfl, by decide⟩ none pontryaginHamiltonian hH
    (fun el tau => (hv el tau).choose) (fun el _ tau => (hv el tau).choose_spec.1)
    (fun _ _ _ => pontryagin_solvable _) (fun el _ tau => (hv el tau).choose_spec.2) hk
  rw [← pontryagin_added]
  exact ⟨m, _, cons, fun el _ tau => (hv el tau).choose_spec, hm, h₁, h₂⟩

open Example in
/-- The hypotheses of `C183_stage_fails` and `C183_limits_fails` are met. -/
example :
    (prepare pontryaginBackend false false 10 20 21
      { pontryaginProblem with S := .mul (.const 100) (.sym 2) }).1 = .ok () ∧
    (prepare pontryaginBackend false false 10 20 21
      { pontryaginProblem with duMax := [XRat.fin 1] }).1 = .ok () := by decide +kernel

end Verif
